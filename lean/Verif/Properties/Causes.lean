import Verif.Proofs.Resolve.Acts
import Verif.Proofs.Resolve.Unique
import Verif.Properties.Resolver
/-! Property C57: exactly which programs the resolver accepts, with which locations, and exactly which
errors it reports for the others. -/
namespace Ws.Properties
open Ws Spec

variable {history : List (List Stmt)} {sts sts' : List Stmt} {rs rs' : Resolver} {es : List Cause}

/-- A resolver after some programs, whatever their results. -/
inductive AfterPrograms : List (List Stmt) → Resolver → Prop
  | new : AfterPrograms [] .new
  | next {history rs sts r rs'} : AfterPrograms history rs → rs.resolve sts = .done (r, rs') → AfterPrograms (history ++ [sts]) rs'

theorem after_session (h : AfterPrograms history rs) : Session rs := by
  induction h with
  | new => exact .new
  | next _ h ih => exact .next ih h

theorem session_after (h : Session rs) : ∃ history, AfterPrograms history rs := by
  induction h with
  | new => exact ⟨_, .new⟩
  | next _ h ih => exact ⟨_, .next ih.choose_spec h⟩

theorem session_faults (h : Session rs) :
    match programFaults rs.bindings sts with
    | none => rs.resolve sts = .panic "Too many nested lexical scopes"
    | some (es, b) => ∃ r rs', rs.resolve sts = .done (r, rs') ∧ rs'.bindings = b ∧
        if es = [] then ∃ sts', r = .ok sts' else r = .error es :=
  have ⟨h1, h2, h3⟩ := state_restored h
  resolve_faults (session_wf h) h1 h2 h3

theorem after_bindings (h : AfterPrograms history rs) : rs.bindings = bindingsOf history := by
  induction h with
  | new => rfl
  | @next history rs sts r rs' h hr ih =>
    have := session_faults (sts := sts) (after_session h)
    rw [ih] at this
    simp only [bindingsOf, List.foldl_append, List.foldl_cons, List.foldl_nil]
    change _ = match programFaults (bindingsOf history) sts with
      | some (_, b') => b'
      | none => bindingsOf history
    cases hp : programFaults (bindingsOf history) sts with
    | none =>
      rw [hp] at this
      dsimp only at this
      rw [hr] at this
      cases this
    | some p =>
      rw [hp] at this
      obtain ⟨_, _, e, hb, _⟩ := this
      rw [hr] at e
      cases e
      exact hb

/-- C57: the result of the resolver. -/
theorem resolve_exact (h : AfterPrograms history rs) :
    match programFaults (bindingsOf history) sts with
    | none => rs.resolve sts = .panic "Too many nested lexical scopes"
    | some ([], _) => ∃ sts' rs', rs.resolve sts = .done (.ok sts', rs')
    | some (es, _) => ∃ rs', rs.resolve sts = .done (.error es, rs') := by
  have := session_faults (sts := sts) (after_session h)
  rw [after_bindings h] at this
  cases hp : programFaults (bindingsOf history) sts with
  | none => rw [hp] at this; exact this
  | some p =>
    obtain ⟨es, b⟩ := p
    rw [hp] at this
    obtain ⟨r, rs', e, _, hc⟩ := this
    cases es with
    | nil =>
      obtain ⟨sts', rfl⟩ := hc
      exact ⟨sts', rs', e⟩
    | cons x es =>
      cases hc
      exact ⟨rs', e⟩

/-- C57: a program is rejected with exactly the errors of its faults. -/
theorem rejected_iff (h : AfterPrograms history rs) :
    (∃ rs', rs.resolve sts = .done (.error es, rs')) ↔ es ≠ [] ∧ ∃ b, programFaults (bindingsOf history) sts = some (es, b) := by
  have := resolve_exact (sts := sts) h
  constructor
  · rintro ⟨rs', e⟩
    cases hp : programFaults (bindingsOf history) sts with
    | none => rw [hp] at this; dsimp only at this; rw [e] at this; cases this
    | some p =>
      obtain ⟨es', b⟩ := p
      rw [hp] at this
      cases es' with
      | nil => obtain ⟨_, _, e'⟩ := this; rw [e] at e'; cases e'
      | cons x es' => obtain ⟨_, e'⟩ := this; rw [e] at e'; cases e'; exact ⟨by simp, b, rfl⟩
  · rintro ⟨hn, b, hp⟩
    rw [hp] at this
    cases es with
    | nil => exact absurd rfl hn
    | cons x es => exact this

/-- C57: the resolver panics exactly for scopes that are nested too deep. -/
theorem panics_iff (h : AfterPrograms history rs) {m : String} :
    rs.resolve sts = .panic m ↔ m = "Too many nested lexical scopes" ∧ programFaults (bindingsOf history) sts = none := by
  have := resolve_exact (sts := sts) h
  cases hp : programFaults (bindingsOf history) sts with
  | none => rw [hp] at this; dsimp only at this; rw [this]; simp [eq_comm]
  | some p =>
    obtain ⟨es', b⟩ := p
    rw [hp] at this
    cases es' with
    | nil => obtain ⟨_, _, e'⟩ := this; rw [e']; simp
    | cons x es' => obtain ⟨_, e'⟩ := this; rw [e']; simp

theorem after_names (h : AfterPrograms history rs) : [globals rs] = (bindingsOf history).map (List.map Prod.fst) := by
  obtain ⟨g, h1, h2, h3⟩ := session_scopes (after_session h)
  rw [← after_bindings h, Resolver.bindings, h1, h2]
  simp [Scope.bindings, Scope.names, Function.comp_def]

/-- C57: a program is accepted with certain locations exactly if it has no faults and the locations are
right. -/
theorem resolved_iff (h : AfterPrograms history rs) :
    (∃ rs', rs.resolve sts = .done (.ok sts', rs')) ↔
      (∃ b, programFaults (bindingsOf history) sts = some ([], b)) ∧
      eraseStmts sts' = eraseStmts sts ∧
      AtEach EventOk ((bindingsOf history).map (List.map Prod.fst)) (stmtsEvents sts') := by
  have hx := resolve_exact (sts := sts) h
  rw [← after_names h]
  constructor
  · rintro ⟨rs', e⟩
    refine ⟨?_, only_locations e, locations (after_session h) e⟩
    cases hp : programFaults (bindingsOf history) sts with
    | none => rw [hp] at hx; dsimp only at hx; rw [e] at hx; cases hx
    | some p =>
      obtain ⟨es', b⟩ := p
      rw [hp] at hx
      cases es' with
      | nil => exact ⟨b, rfl⟩
      | cons x es' => obtain ⟨_, e'⟩ := hx; rw [e] at e'; cases e'
  · rintro ⟨⟨b, hp⟩, he, ho⟩
    rw [hp] at hx
    obtain ⟨sts2, rs', e⟩ := hx
    have e' : rs.resolve sts' = .done (.ok sts2, rs') := by rw [annotations_ignored he, e]
    obtain ⟨_, _, _, hn⟩ := session_scopes (after_session h)
    have := resolved_same (resolve_ok e') (session_wf (after_session h))
      (by rw [hn, show itemEvents (.nodes (sts'.map .stmt)) = stmtsEvents sts' from (stmtsEvents_eq sts').symm]; exact ho)
    rw [map_stmt_inj (Item.nodes.inj this)]
    exact ⟨rs', e⟩

/-- The locations of an accepted program are determined by the program. -/
theorem locations_unique (h : AfterPrograms history rs) (hr : rs.resolve sts = .done (.ok sts', rs')) {other : List Stmt}
    (he : eraseStmts other = eraseStmts sts)
    (ho : AtEach EventOk ((bindingsOf history).map (List.map Prod.fst)) (stmtsEvents other)) : other = sts' := by
  obtain ⟨rs2, e⟩ := (resolved_iff (sts' := other) h).mpr ⟨((resolved_iff h).mp ⟨_, hr⟩).1, he, ho⟩
  rw [hr] at e
  cases e
  rfl

/-! ### Without computing -/

theorem perform_fine {b b' : Bindings} {as : List Act} :
    perform b as = .fine b' ↔ NoFaults b as ∧ bindingsAfter b as = b' := by
  induction as generalizing b with
  | nil => simp [perform, NoFaults, bindingsAfter]
  | cons a as ih =>
    have key : NoFaults b (a :: as) ↔ (a.fault b = none ∧ a.tooDeep b = false) ∧ NoFaults (a.after b) as := by
      constructor
      · intro h
        refine ⟨h [] a as rfl, ?_⟩
        rintro u x w rfl
        exact h (a :: u) x w rfl
      · rintro ⟨h1, h2⟩ u x w e
        cases u with
        | nil => cases e; exact h1
        | cons y u => cases e; exact h2 u x w rfl
    rw [perform, key]
    cases hf : a.fault b with
    | some c => simp
    | none =>
      cases ht : a.tooDeep b with
      | true => simp
      | false =>
        simp only [Bool.false_eq_true, if_false, true_and]
        exact ih

theorem perform_fault {b b' : Bindings} {c : Cause} {as : List Act} :
    perform b as = .fault c b' ↔ ∃ before a after, as = before ++ a :: after ∧ NoFaults b before ∧
      bindingsAfter b before = b' ∧ a.fault b' = some c := by
  induction as generalizing b with
  | nil => simp [perform]
  | cons a as ih =>
    rw [perform]
    cases hf : a.fault b with
    | some c' =>
      constructor
      · intro h
        cases h
        exact ⟨[], a, as, rfl, by intro u x w e; simp at e, rfl, hf⟩
      · rintro ⟨u, x, w, e, h1, h2, h3⟩
        cases u with
        | nil =>
          cases e
          cases h2
          rw [bindingsAfter, List.foldl_nil, hf] at h3
          cases h3
          rfl
        | cons y u =>
          cases e
          have := (h1 [] a u rfl).1
          rw [bindingsAfter, List.foldl_nil, hf] at this
          cases this
    | none =>
      cases ht : a.tooDeep b with
      | true =>
        constructor
        · intro h
          cases h
        · rintro ⟨u, x, w, e, h1, h2, h3⟩
          cases u with
          | nil =>
            cases e
            cases h2
            rw [bindingsAfter, List.foldl_nil, hf] at h3
            cases h3
          | cons y u =>
            cases e
            have := (h1 [] a u rfl).2
            rw [bindingsAfter, List.foldl_nil, ht] at this
            cases this
      | false =>
        simp only [Bool.false_eq_true, if_false]
        rw [ih]
        constructor
        · rintro ⟨u, x, w, rfl, h1, h2, h3⟩
          refine ⟨a :: u, x, w, rfl, ?_, h2, h3⟩
          rintro u' x' w' e
          cases u' with
          | nil => cases e; exact ⟨hf, ht⟩
          | cons y u' => cases e; exact h1 u' x' w' rfl
        · rintro ⟨u, x, w, e, h1, h2, h3⟩
          cases u with
          | nil =>
            cases e
            cases h2
            rw [bindingsAfter, List.foldl_nil, hf] at h3
            cases h3
          | cons y u =>
            cases e
            refine ⟨u, x, w, rfl, ?_, h2, h3⟩
            rintro u' x' w' rfl
            exact h1 (a :: u') x' w' rfl

theorem noFaults_append {b : Bindings} {as as' : List Act} :
    NoFaults b (as ++ as') ↔ NoFaults b as ∧ NoFaults (bindingsAfter b as) as' := by
  constructor
  · intro h
    constructor
    · rintro u x w rfl
      exact h u x (w ++ as') (by simp)
    · rintro u x w rfl
      have := h (as ++ u) x w (by simp)
      rwa [bindingsAfter, List.foldl_append] at this
  · rintro ⟨h1, h2⟩ u x w e
    rcases List.append_eq_append_iff.mp e with ⟨z, rfl, hz⟩ | ⟨z, ha, hz⟩
    · rw [bindingsAfter, List.foldl_append]
      exact h2 z x w hz
    · cases z with
      | nil =>
        simp only [List.append_nil] at ha
        subst ha
        exact h2 [] x w hz.symm
      | cons y z =>
        simp only [List.cons_append, List.cons.injEq] at hz
        obtain ⟨rfl, rfl⟩ := hz
        exact h1 u x z ha

theorem program_fine {b : Bindings} : (∃ b', programFaults b sts = some ([], b')) ↔ NoFaults b (stmtsActs .nowhere .nowhere sts) := by
  induction sts generalizing b with
  | nil =>
    simp only [programFaults, stmtsActs]
    exact ⟨fun _ => by intro u x w e; simp at e, fun _ => ⟨b, rfl⟩⟩
  | cons s ss ih =>
    rw [programFaults, stmtsActs, noFaults_append]
    cases hp : perform b (stmtActs .nowhere .nowhere s) with
    | fine b' =>
      obtain ⟨h1, rfl⟩ := perform_fine.mp hp
      dsimp only
      rw [ih]
      exact ⟨fun h => ⟨h1, h⟩, fun h => h.2⟩
    | fault c b' =>
      dsimp only
      constructor
      · rintro ⟨b2, h⟩
        cases hq : programFaults (b'.drop (b'.length - 1)) ss with
        | none => rw [hq] at h; cases h
        | some r => rw [hq] at h; cases h
      · rintro ⟨h, _⟩
        have := perform_fine.mpr ⟨h, rfl⟩
        rw [hp] at this
        cases this
    | tooDeep =>
      dsimp only
      constructor
      · rintro ⟨b2, h⟩
        cases h
      · rintro ⟨h, _⟩
        have := perform_fine.mpr ⟨h, rfl⟩
        rw [hp] at this
        cases this

/-- C57: a program is accepted exactly if no act is at fault, given the names bound where it stands. -/
theorem resolves_iff (h : AfterPrograms history rs) :
    (∃ sts' rs', rs.resolve sts = .done (.ok sts', rs')) ↔
      NoFaults (bindingsOf history) (stmtsActs .nowhere .nowhere sts) := by
  rw [← program_fine]
  constructor
  · rintro ⟨sts', e⟩
    exact ((resolved_iff h).mp e).1
  · rintro ⟨b, hp⟩
    have := resolve_exact (sts := sts) h
    rw [hp] at this
    exact this

/-! ### Examples -/

/-- Two statements without a fault, with four between them that have faults. -/
def mixedTree : List Stmt :=
  [.var c!"x" .placeholder .literalNil ⟨1, 5⟩,
    .return (v c!"q" 2 8) ⟨2, 1⟩,
    .fun (.mk c!"f" (.mk [⟨c!"a", ⟨3, 7⟩⟩]
      [.var c!"a" .placeholder .literalNil ⟨4, 7⟩, .return (v c!"r" 5 10) ⟨5, 3⟩] .plainFunction ⟨3, 5⟩)),
    .class c!"A" (some (v c!"A" 6 11))
      [.mk c!"m" (.mk [] [.return (.super .placeholder c!"m" ⟨8, 12⟩) ⟨8, 5⟩] .method ⟨7, 3⟩)] ⟨6, 7⟩,
    .if (v c!"x" 9 4) (.block [.var c!"y" .placeholder (v c!"y" 10 11) ⟨10, 7⟩]) none,
    .print (v c!"c" 11 7)]

def mixedCauses : List Cause :=
  [⟨⟨2, 1⟩, some c!"return", "Cannot return from top-level code."⟩,
    ⟨⟨4, 7⟩, some c!"a", "Variable with this name already declared in this scope."⟩,
    ⟨⟨6, 11⟩, some c!"A", "A class cannot inherit from itself."⟩,
    ⟨⟨10, 11⟩, some c!"y", "Cannot read local variable in its own initializer."⟩]

/-- The names that are left: `c` was used, the others were declared. -/
def mixedNames : Bindings := [[(c!"x", .declared), (c!"f", .declared), (c!"A", .declared), (c!"c", .used)]]

theorem mixed_faults : programFaults [[]] mixedTree = some (mixedCauses, mixedNames) := by by_kernel

theorem mixed_rejected : ∃ rs', Resolver.new.resolve mixedTree = .done (.error mixedCauses, rs') :=
  (rejected_iff .new).mpr ⟨by simp [mixedCauses], _, mixed_faults⟩

/-- After that program, `c` has slot 3 and a new global has slot 4. -/
example : ∃ rs rs', AfterPrograms [mixedTree] rs ∧ bindingsOf [mixedTree] = mixedNames ∧
    rs.resolve [.expression (.assign c!"d" .placeholder (v c!"c" 1 5) ⟨1, 3⟩)] =
      .done (.ok [.expression (.assign c!"d" ⟨0, 4⟩ (u c!"c" 0 3 1 5) ⟨1, 3⟩)], rs') := by
  obtain ⟨rs, h⟩ := mixed_rejected
  have ha : AfterPrograms [mixedTree] rs := .next .new h
  have hb : bindingsOf [mixedTree] = mixedNames := by by_kernel
  refine ⟨rs, ?_⟩
  obtain ⟨rs', h'⟩ := (resolved_iff (sts := [.expression (.assign c!"d" .placeholder (v c!"c" 1 5) ⟨1, 3⟩)]) ha).mpr
    ⟨⟨[mixedNames.head! ++ [(c!"d", .used)]], by rw [hb]; by_kernel⟩, by by_kernel, by
      rw [hb]
      have e : stmtsEvents [.expression (.assign c!"d" ⟨0, 4⟩ (u c!"c" 0 3 1 5) ⟨1, 3⟩)] =
        [.use c!"c" ⟨0, 3⟩, .use c!"d" ⟨0, 4⟩] := by by_kernel
      rw [e]
      refine atEach_append (a := [_]) (atEach_one (.inl ⟨3, ⟨⟨_, rfl, rfl⟩, ?_⟩, rfl⟩)) (atEach_one (.inr ⟨?_, _, rfl, rfl, rfl⟩))
      · intro d hd
        exact absurd hd (Nat.not_lt_zero _)
      · decide⟩
  exact ⟨rs', ha, hb, h'⟩

/-- The acts of a source with nested functions; none is at fault. -/
example : ∃ sts, Accepts asciiEnv false scoping sts ∧ NoFaults [[]] (stmtsActs .nowhere .nowhere sts) :=
  have ⟨sts, rs', h, hr⟩ := gives scoping_ok
  ⟨sts, h, (resolves_iff .new).mp ⟨_, rs', hr⟩⟩

/-- Scopes nested too deep. -/
example (n : Nat) (hn : 65534 ≤ n) : programFaults [[]] [nest n] = none := by
  refine ((panics_iff .new (m := "Too many nested lexical scopes")).mp ?_).2
  have h := nested_blocks n
  rw [if_neg (by omega)] at h
  unfold resolve at h
  simp only [bind, Outcome.bind] at h
  cases hr : Resolver.new.resolve [nest n] with
  | done q => rw [hr] at h; cases h
  | panic m => rw [hr] at h; cases h; rfl
  | diverge => rw [hr] at h; cases h

end Ws.Properties
