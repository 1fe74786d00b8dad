import Verif.Proofs.Resolve.Separate
import Verif.Properties.Unused
import Verif.Properties.Rejected
import Verif.Properties.Driver
/-! Property C85: the statements of a program can be checked separately. -/
namespace Ws.Properties
open Ws Spec

variable {history : List (List Stmt)} {rs rs1 : Resolver} {s : Stmt} {sts : List Stmt} {r r0 : Except ParseError (List Stmt)}

/-- One of the errors is that there are more than 65535 names in a scope. -/
def HasTooMany (r : Except ParseError (List Stmt)) : Prop := ∃ es, r = .error es ∧ ∃ e ∈ es, TooMany e

/-- Both results are the same program but for the slots, or the same errors. -/
def SameButSlots : Except ParseError (List Stmt) → Except ParseError (List Stmt) → Prop
  | .ok sts, .ok sts' => slotlessStmts sts = slotlessStmts sts'
  | .error es, .error es' => es = es'
  | _, _ => False

theorem fresh_in_session (hs : Session rs) (hb : ∀ x, ¬ GlobalBegun rs.scopes x) {G : Str → Prop}
    (hG : ∀ g x, rs.scopes = [g] → g.stateOf x = some .definedVar → G x) : InSession G .new rs := by
  obtain ⟨h1, h2, h3⟩ := state_restored hs
  obtain ⟨g, e, _⟩ := session_scopes hs
  refine ⟨?_, h2.symm, h3.symm⟩
  rw [e]
  refine .one fun x => ?_
  show GlobalLater _ none (g.stateOf x)
  cases hd : g.stateOf x with
  | none => exact .same _
  | some d =>
    cases d with
    | undefinedVar => exact .reserved
    | declaredVar => exact absurd ⟨g, by rw [e]; rfl, hd⟩ (hb x)
    | definedVar => exact .defined _ (hG g x e hd)

theorem state_binding (h : AfterPrograms history rs) {g} (e : rs.scopes = [g]) {x : Str} {d : DefinedState} :
    (x, d.status) ∈ (bindingsOf history).head?.getD [] ↔ g.stateOf x = some d := by
  have hw : ScopeWf g := (session_wf (after_session h)).scope g (by rw [e]; simp)
  rw [← after_bindings h, Resolver.bindings, e]
  simp only [List.map_cons, List.map_nil, List.head?_cons, Option.getD_some, mem_bindings hw]
  unfold Scope.stateOf
  constructor
  · rintro ⟨v, h1, h2⟩
    rw [h1, Option.map_some]
    cases hd : v.definedState <;> cases d <;> rw [hd] at h2 <;> first | rfl | cases h2
  · intro h
    cases hg : g.get x with
    | none => rw [hg] at h; cases h
    | some v => rw [hg] at h; cases h; exact ⟨v, rfl, rfl⟩

theorem broken_iff (h : AfterPrograms history rs) {x : Str} : IsBroken history x ↔ GlobalBegun rs.scopes x := by
  obtain ⟨g, e, _⟩ := session_scopes (after_session h)
  refine (state_binding h e (d := .declaredVar)).trans ?_
  unfold GlobalBegun
  rw [e]
  exact ⟨fun h => ⟨g, rfl, h⟩, fun ⟨g', e', h⟩ => by cases e'; exact h⟩

theorem unbroken_in_session (h : AfterPrograms history rs) (hb : ∀ x, ¬ IsBroken history x) : InSession (IsDeclared history) .new rs :=
  fresh_in_session (after_session h) (fun x hx => hb x ((broken_iff h).mpr hx))
    fun _ _ e hd => (state_binding h e (d := .definedVar)).mpr hd

theorem resolve_one {rs rs1 : Resolver} (h : rs.resolve [s] = .done (r, rs1)) :
    (∃ s', resolveStmt s rs = .ok s' rs1 ∧ r = .ok [s']) ∨ ∃ e, resolveStmt s rs = .err e rs1 ∧ r = .error [e] := by
  unfold Resolver.resolve at h
  simp only [resolveLoop] at h
  cases h1 : resolveStmt s rs with
  | ok a t => rw [h1] at h; cases h; exact .inl ⟨a, rfl, rfl⟩
  | err e t => rw [h1] at h; cases h; exact .inr ⟨e, rfl, rfl⟩
  | panic m => rw [h1] at h; cases h
  | diverge => rw [h1] at h; cases h

theorem resolve_new {sts : List Stmt} (h : resolve sts = .done r) : ∃ rs1, Resolver.new.resolve sts = .done (r, rs1) := by
  unfold resolve at h
  cases h1 : Resolver.new.resolve sts with
  | done x => rw [h1] at h; cases h; exact ⟨_, rfl⟩
  | panic m => rw [h1] at h; cases h
  | diverge => rw [h1] at h; cases h

/-- C85: what the resolver says of a statement at the top level does not depend on the programs before, if
no declaration failed in them. On its own and in a session, the statement is accepted, and every variable is
found at the same distance; or it has the same error. There are two exceptions: there may be too many
names; and a variable that is read in its own initializer is accepted if it is declared before. -/
theorem statement_separately (h : AfterPrograms history rs) (hb : ∀ x, ¬ IsBroken history x)
    (h0 : resolve [s] = .done r0) (h1 : rs.resolve [s] = .done (r, rs1)) :
    SameButSlots r0 r ∨ HasTooMany r0 ∨ HasTooMany r ∨ ∃ x loc, r0 = .error [ownInitializer x loc] ∧ IsDeclared history x := by
  obtain ⟨t, h0⟩ := resolve_new h0
  have key := sep_stmt s _ _ (unbroken_in_session h hb)
  rcases resolve_one h0 with ⟨a, e0, rfl⟩ | ⟨e, e0, rfl⟩ <;> rcases resolve_one h1 with ⟨b, e1, rfl⟩ | ⟨e', e1, rfl⟩ <;>
    rw [e0, e1] at key
  · cases key with
    | ok hv _ => exact .inl (by simp only [SameButSlots, slotlessStmts, hv])
  · cases key with
    | full' _ _ he => exact .inr (.inr (.inl ⟨_, rfl, _, List.mem_singleton.mpr rfl, he⟩))
  · cases key with
    | full _ _ he => exact .inr (.inl ⟨_, rfl, _, List.mem_singleton.mpr rfl, he⟩)
    | own _ _ _ hx => exact .inr (.inr (.inr ⟨_, _, rfl, hx⟩))
  · cases key with
    | err => exact .inl rfl
    | full _ _ he => exact .inr (.inl ⟨_, rfl, _, List.mem_singleton.mpr rfl, he⟩)
    | full' _ _ he => exact .inr (.inr (.inl ⟨_, rfl, _, List.mem_singleton.mpr rfl, he⟩))
    | own _ _ _ hx => exact .inr (.inr (.inr ⟨_, _, rfl, hx⟩))

/-- A resolver after some programs that it accepted. -/
inductive AfterAccepted : List (List Stmt) → Resolver → Prop
  | new : AfterAccepted [] .new
  | next {history rs sts sts' rs'} : AfterAccepted history rs → rs.resolve sts = .done (.ok sts', rs') →
      AfterAccepted (history ++ [sts]) rs'

theorem accepted_after (h : AfterAccepted history rs) : AfterPrograms history rs := by
  induction h with
  | new => exact .new
  | next _ h ih => exact .next ih h

theorem loop_begins : ∀ {sts sts' : List Stmt} {rs rs' : Resolver}, resolveLoop sts rs = .done (sts', [], rs') → rs.scopes ≠ [] →
    ∀ {y}, GlobalBegun rs'.scopes y → GlobalBegun rs.scopes y
  | [], _, _, _, h, _, _, hb => by cases h; exact hb
  | s :: ss, sts', rs, rs', h, hn, y, hb => by
    simp only [resolveLoop] at h
    cases h1 : resolveStmt s rs with
    | ok s1 t =>
      simp only [h1, bind, Outcome.bind] at h
      have hr := resolved_stmt s h1
      cases h2 : resolveLoop ss t with
      | done x =>
        obtain ⟨p, q, w⟩ := x
        simp only [h2] at h
        cases h
        exact resolved_begins hr hn (loop_begins h2 (resolved_shape hr hn).nonempty hb)
      | panic m => simp only [h2] at h; cases h
      | diverge => simp only [h2] at h; cases h
    | err s1 t =>
      simp only [h1, bind, Outcome.bind] at h
      cases h2 : resolveLoop ss t with
      | done x => simp only [h2] at h; cases h
      | panic m => simp only [h2] at h; cases h
      | diverge => simp only [h2] at h; cases h
    | panic m => rw [h1] at h; cases h
    | diverge => rw [h1] at h; cases h

/-- C85: after programs that were accepted, no declaration has failed. -/
theorem accepted_unbroken (h : AfterAccepted history rs) (x : Str) : ¬ IsBroken history x := by
  rw [broken_iff (accepted_after h)]
  induction h with
  | new => rintro ⟨g, e1, e2⟩; cases e1; cases e2
  | next h1 h2 ih =>
    intro hb
    obtain ⟨sts', es, g1, g2⟩ := resolve_by_loop h2
    cases es with
    | nil => exact ih (loop_begins g1 (session_wf (after_session (accepted_after h1))).nonempty hb)
    | cons e es => cases g2

/-- The statements, as they are resolved on their own, but for the slots. -/
inductive AsAlone : List Stmt → List Stmt → Prop
  | nil : AsAlone [] []
  | cons {s a s' ss ss'} : resolve [s] = .done (.ok [a]) → slotlessStmt s' = slotlessStmt a → AsAlone ss ss' →
      AsAlone (s :: ss) (s' :: ss')

theorem loop_separately : ∀ {sts sts' : List Stmt} {rs rs' : Resolver} {es}, (∀ s ∈ sts, ∃ a, resolve [s] = .done (.ok [a])) →
    Session rs → (∀ x, ¬ GlobalBegun rs.scopes x) → resolveLoop sts rs = .done (sts', es, rs') →
    (∃ e ∈ es, TooMany e) ∨ es = [] ∧ AsAlone sts sts'
  | [], _, _, _, _, _, _, _, h => by cases h; exact .inr ⟨rfl, .nil⟩
  | s :: ss, sts', rs, rs', es, ha, hs, hb, h => by
    obtain ⟨a, h0⟩ := ha s (by simp)
    obtain ⟨t, h0'⟩ := resolve_new h0
    rcases resolve_one h0' with ⟨a, e0, e⟩ | ⟨e, e0, e⟩
    · cases e
      have key := sep_stmt s _ _ (fresh_in_session hs hb (G := fun _ => True) fun _ _ _ _ => trivial)
      rw [e0] at key
      simp only [resolveLoop] at h
      cases hr : resolveStmt s rs with
      | ok b u =>
        rw [hr] at key h
        simp only [bind, Outcome.bind] at h
        have hl : resolveLoop [s] rs = .done ([b], [], u) := by simp only [resolveLoop, hr, bind, Outcome.bind]
        cases h2 : resolveLoop ss u with
        | done x =>
          simp only [h2] at h
          cases h
          cases key with
          | ok hv _ =>
          rcases loop_separately (fun s hs => ha s (by simp [hs])) (.next hs (loop_resolve hl))
            (fun x hx => hb x (loop_begins hl (session_wf hs).nonempty hx)) h2 with ⟨e, he, ht⟩ | ⟨he, ht⟩
          · exact .inl ⟨e, he, ht⟩
          · exact .inr ⟨he, .cons h0 hv ht⟩
        | panic m => simp only [h2] at h; cases h
        | diverge => simp only [h2] at h; cases h
      | err c u =>
        rw [hr] at key h
        simp only [bind, Outcome.bind] at h
        cases key with
        | full' _ _ he =>
        cases h2 : resolveLoop ss u with
        | done x => simp only [h2] at h; cases h; exact .inl ⟨c, by simp, he⟩
        | panic m => simp only [h2] at h; cases h
        | diverge => simp only [h2] at h; cases h
      | panic m => rw [hr] at h; cases h
      | diverge => rw [hr] at h; cases h
    · cases e

/-- C85: statements that are accepted on their own make a program that is accepted, whatever their order,
after all programs in which no declaration failed, unless there are too many names. Every variable is found
at the same distance as in the statement on its own. -/
theorem accepted_separately (h : AfterPrograms history rs) (hb : ∀ x, ¬ IsBroken history x)
    (ha : ∀ s ∈ sts, ∃ a, resolve [s] = .done (.ok [a])) (h1 : rs.resolve sts = .done (r, rs1)) :
    HasTooMany r ∨ ∃ sts', r = .ok sts' ∧ AsAlone sts sts' := by
  obtain ⟨sts', es, g1, g2⟩ := resolve_by_loop h1
  rcases loop_separately ha (after_session h) (fun x hx => hb x ((broken_iff h).mpr hx)) g1 with ⟨e, he, ht⟩ | ⟨rfl, ht⟩
  · refine .inl ⟨es, ?_, e, he, ht⟩
    rw [g2, if_neg]
    intro h0
    rw [List.isEmpty_iff.mp h0] at he
    cases he
  · exact .inr ⟨sts', g2, ht⟩

/-- `fun f() return g()` or the like. -/
def callsOther (f g : Str) (line slot : Nat) : Stmt :=
  .fun (.mk f (.mk [] [.return (.call (.variable g ⟨1, slot⟩ ⟨line, 16⟩) [] ⟨line, 16⟩) ⟨line, 9⟩] .plainFunction ⟨line, 5⟩))
/-- Two functions that call each other, in both orders. -/
example : AfterPrograms [] .new ∧ (∀ x, ¬ IsBroken [] x) ∧
    (∀ s ∈ [callsOther c!"f" c!"g" 1 1, callsOther c!"g" c!"f" 2 0], ∃ a, resolve [s] = .done (.ok [a])) ∧
    resolve [callsOther c!"f" c!"g" 1 0, callsOther c!"g" c!"f" 2 0] = .done (.ok [callsOther c!"f" c!"g" 1 1, callsOther c!"g" c!"f" 2 0]) ∧
    resolve [callsOther c!"g" c!"f" 2 0, callsOther c!"f" c!"g" 1 0] = .done (.ok [callsOther c!"g" c!"f" 2 1, callsOther c!"f" c!"g" 1 0]) := by
  refine ⟨.new, fun x => new_unbroken.1, fun s hs => ?_, by by_kernel, by by_kernel⟩
  simp only [List.mem_cons, List.not_mem_nil, or_false] at hs
  rcases hs with rfl | rfl
  · exact ⟨callsOther c!"f" c!"g" 1 1, by by_kernel⟩
  · exact ⟨callsOther c!"g" c!"f" 2 1, by by_kernel⟩
/-- A variable that is read in its own initializer: an error, unless the variable is declared before. -/
example : resolve [.var c!"a" ⟨0⟩ (.variable c!"a" ⟨0, 0⟩ ⟨1, 9⟩) ⟨1, 5⟩] = .done (.error [ownInitializer c!"a" ⟨1, 9⟩]) ∧
    resolve [.var c!"a" ⟨0⟩ .literalNil ⟨1, 5⟩, .var c!"a" ⟨0⟩ (.variable c!"a" ⟨0, 0⟩ ⟨2, 9⟩) ⟨2, 5⟩] =
      .done (.ok [.var c!"a" ⟨0⟩ .literalNil ⟨1, 5⟩, .var c!"a" ⟨0⟩ (.variable c!"a" ⟨0, 0⟩ ⟨2, 9⟩) ⟨2, 5⟩]) :=
  ⟨by by_kernel, by by_kernel⟩
/-- After a declaration that failed, a statement that is accepted on its own may be rejected. -/
example : resolve [.print (.variable c!"a" ⟨0, 0⟩ ⟨1, 7⟩)] = .done (.ok [.print (.variable c!"a" ⟨0, 0⟩ ⟨1, 7⟩)]) ∧
    resolve [.var c!"a" ⟨0⟩ (.variable c!"this" ⟨0, 0⟩ ⟨1, 9⟩) ⟨1, 5⟩, .print (.variable c!"a" ⟨0, 0⟩ ⟨2, 7⟩)] =
      .done (.error [⟨⟨1, 9⟩, some c!"this", "Cannot use 'this' outside of a class."⟩, ownInitializer c!"a" ⟨2, 7⟩]) :=
  ⟨by by_kernel, by by_kernel⟩

theorem loop_in_session {G : Str → Prop} : ∀ {sts a b : List Stmt} {rs rs' t t' : Resolver} {es}, InSession G rs rs' →
    resolveLoop sts rs = .done (a, [], t) → resolveLoop sts rs' = .done (b, es, t') →
    (∃ e ∈ es, TooMany e) ∨ es = [] ∧ slotlessStmts b = slotlessStmts a
  | [], _, _, _, _, _, _, _, _, h, h' => by cases h; cases h'; exact .inr ⟨rfl, rfl⟩
  | s :: ss, a, b, rs, rs', t, t', es, hp, h, h' => by
    have key := sep_stmt s _ _ hp
    simp only [resolveLoop] at h h'
    revert key h h'
    generalize resolveStmt s rs = r
    generalize resolveStmt s rs' = r'
    intro h h' key
    cases r with
    | panic m => cases h
    | diverge => cases h
    | err e u =>
      simp only [bind, Outcome.bind] at h
      cases h2 : resolveLoop ss u with
      | done x => simp only [h2] at h; cases h
      | panic m => simp only [h2] at h; cases h
      | diverge => simp only [h2] at h; cases h
    | ok c u =>
      simp only [bind, Outcome.bind] at h
      cases h2 : resolveLoop ss u with
      | panic m => simp only [h2] at h; cases h
      | diverge => simp only [h2] at h; cases h
      | done x =>
      obtain ⟨x1, x2, x3⟩ := x
      simp only [h2] at h
      cases h
      cases key with
      | @ok _ c' _ u' hv hp1 =>
        simp only [bind, Outcome.bind] at h'
        cases h3 : resolveLoop ss u' with
        | panic m => simp only [h3] at h'; cases h'
        | diverge => simp only [h3] at h'; cases h'
        | done y =>
        simp only [h3] at h'
        cases h'
        rcases loop_in_session hp1 h2 h3 with h4 | ⟨h4, h5⟩
        · exact .inl h4
        · exact .inr ⟨h4, by simp only [slotlessStmts, hv, h5]⟩
      | @full' e _ u' he =>
        simp only [bind, Outcome.bind] at h'
        cases h3 : resolveLoop ss u' with
        | panic m => simp only [h3] at h'; cases h'
        | diverge => simp only [h3] at h'; cases h'
        | done y =>
        simp only [h3] at h'
        cases h'
        exact .inl ⟨e, by simp, he⟩

/-- C85, for programs: a program that is accepted on its own is accepted after all programs in which no
declaration failed, unless there are too many names. Every variable is found at the same distance. -/
theorem program_separately {sts0 : List Stmt} (h : AfterPrograms history rs) (hb : ∀ x, ¬ IsBroken history x)
    (h0 : resolve sts = .done (.ok sts0)) (h1 : rs.resolve sts = .done (r, rs1)) :
    HasTooMany r ∨ ∃ sts', r = .ok sts' ∧ slotlessStmts sts' = slotlessStmts sts0 := by
  obtain ⟨t, h0⟩ := resolve_new h0
  obtain ⟨a, es0, g1, g2⟩ := resolve_by_loop h0
  obtain ⟨b, es, g3, g4⟩ := resolve_by_loop h1
  cases es0 with
  | cons e es => cases g2
  | nil =>
    cases g2
    rcases loop_in_session (unbroken_in_session h hb) g1 g3 with ⟨e, he, ht⟩ | ⟨rfl, ht⟩
    · refine .inl ⟨es, ?_, e, he, ht⟩
      rw [g4, if_neg]
      intro h0
      rw [List.isEmpty_iff.mp h0] at he
      cases he
    · exact .inr ⟨b, g4, ht⟩

/-- C85, for sources: a line that is accepted on its own is accepted after all programs in which no
declaration failed, unless there are too many names. -/
theorem source_separately {env : Env} {repl : Bool} {source : Str} {sts0 : List Stmt} {rs0 : Resolver}
    (h : AfterPrograms history rs) (hb : ∀ x, ¬ IsBroken history x)
    (h0 : run env .new source repl = .done (.ok sts0, rs0)) (h1 : run env rs source repl = .done (r, rs1)) :
    HasTooMany r ∨ ∃ sts', r = .ok sts' ∧ slotlessStmts sts' = slotlessStmts sts0 := by
  cases run_stages.mp h0 with
  | resolve hs hp hr =>
    cases run_stages.mp h1 with
    | scan hs' => rw [hs] at hs'; cases hs'
    | parse hs' hp' => rw [hs] at hs'; cases hs'; rw [hp] at hp'; cases hp'
    | resolve hs' hp' hr' =>
      rw [hs] at hs'
      cases hs'
      rw [hp] at hp'
      cases hp'
      exact program_separately h hb (by unfold resolve; rw [hr]; rfl) hr'

/-- `print b`, on its own and after `var a`. -/
example : AfterAccepted [[.var c!"a" ⟨0⟩ .literalNil ⟨1, 5⟩]] ⟨[[(c!"a", ⟨0, .definedVar⟩)]], .noFunction, .noClass⟩ ∧
    run asciiEnv .new c!"print b\n" true =
      .done (.ok [.print (.variable c!"b" ⟨0, 0⟩ ⟨1, 7⟩)], ⟨[[(c!"b", ⟨0, .undefinedVar⟩)]], .noFunction, .noClass⟩) ∧
    run asciiEnv ⟨[[(c!"a", ⟨0, .definedVar⟩)]], .noFunction, .noClass⟩ c!"print b\n" true =
      .done (.ok [.print (.variable c!"b" ⟨0, 1⟩ ⟨1, 7⟩)],
        ⟨[[(c!"a", ⟨0, .definedVar⟩), (c!"b", ⟨1, .undefinedVar⟩)]], .noFunction, .noClass⟩) :=
  ⟨.next (history := []) (sts' := [.var c!"a" ⟨0⟩ .literalNil ⟨1, 5⟩]) .new (by by_kernel), by by_kernel, by by_kernel⟩

/-- C85, the other way round: a statement of a program that is accepted is accepted on its own, unless it
reads a variable in its own initializer that is declared before in the program, or has too many names. -/
theorem parts_accepted {before after out : List Stmt} (h : resolve (before ++ s :: after) = .done (.ok out))
    (h0 : resolve [s] = .done r0) :
    (∃ a, r0 = .ok [a]) ∨ HasTooMany r0 ∨ ∃ x loc, r0 = .error [ownInitializer x loc] ∧ IsDeclared [before] x := by
  obtain ⟨t, h⟩ := resolve_new h
  obtain ⟨sts', es, g1, g2⟩ := resolve_by_loop h
  rw [resolveLoop_append] at g1
  cases hb1 : resolveLoop before .new with
  | panic m => simp only [hb1, Outcome.bind] at g1; cases g1
  | diverge => simp only [hb1, Outcome.bind] at g1; cases g1
  | done xb =>
    obtain ⟨b, eb, tb⟩ := xb
    simp only [hb1, Outcome.bind] at g1
    have hes : es = [] := by
      cases es with
      | nil => rfl
      | cons e es => cases g2
    simp only [resolveLoop] at g1
    have two : eb = [] ∧ ∃ a u, resolveStmt s tb = .ok a u := by
      cases hr : resolveStmt s tb with
      | panic m => rw [hr] at g1; cases g1
      | diverge => rw [hr] at g1; cases g1
      | ok a u =>
        simp only [hr, bind, Outcome.bind] at g1
        cases h2 : resolveLoop after u with
        | panic m => simp only [h2] at g1; cases g1
        | diverge => simp only [h2] at g1; cases g1
        | done x =>
          simp only [h2] at g1
          cases g1
          exact ⟨(List.append_eq_nil_iff.mp hes).1, a, u, rfl⟩
      | err e u =>
        simp only [hr, bind, Outcome.bind] at g1
        cases h2 : resolveLoop after u with
        | panic m => simp only [h2] at g1; cases g1
        | diverge => simp only [h2] at g1; cases g1
        | done x =>
          simp only [h2] at g1
          cases g1
          cases (List.append_eq_nil_iff.mp hes).2
    obtain ⟨rfl, a, u, ha⟩ := two
    have h3 : AfterAccepted [before] tb := .next (history := []) .new (loop_resolve hb1)
    have h4 : tb.resolve [s] = .done (.ok [a], u) := by
      have : resolveLoop [s] tb = .done ([a], [], u) := by simp only [resolveLoop, ha, bind, Outcome.bind]
      exact loop_resolve this
    rcases statement_separately (accepted_after h3) (accepted_unbroken h3) h0 h4 with h5 | h5 | ⟨_, h5, _⟩ | h5
    · cases r0 with
      | ok sts0 =>
        obtain ⟨_, h0⟩ := resolve_new h0
        rcases resolve_one h0 with ⟨c, _, e⟩ | ⟨c, _, e⟩ <;> cases e
        exact .inl ⟨c, rfl⟩
      | error e => exact absurd h5 (by simp [SameButSlots])
    · exact .inr (.inl h5)
    · cases h5
    · exact .inr (.inr h5)

/-- The second declaration of `a` reads `a`; it is the third case. -/
example : resolve ([.var c!"a" ⟨0⟩ .literalNil ⟨1, 5⟩] ++ .var c!"a" ⟨0⟩ (.variable c!"a" ⟨0, 0⟩ ⟨2, 9⟩) ⟨2, 5⟩ :: []) =
      .done (.ok [.var c!"a" ⟨0⟩ .literalNil ⟨1, 5⟩, .var c!"a" ⟨0⟩ (.variable c!"a" ⟨0, 0⟩ ⟨2, 9⟩) ⟨2, 5⟩]) ∧
    resolve [.var c!"a" ⟨0⟩ (.variable c!"a" ⟨0, 0⟩ ⟨2, 9⟩) ⟨2, 5⟩] = .done (.error [ownInitializer c!"a" ⟨2, 9⟩]) :=
  ⟨by by_kernel, by by_kernel⟩

end Ws.Properties
