import Verif.Proofs.Resolve.Similar
import Verif.Properties.Causes
/-! Properties C45 and C50: what is true of programs that the resolver rejects. -/
namespace Ws.Properties
open Ws Spec

variable {history later : List (List Stmt)} {bad sts sts' : List Stmt} {rs rs' : Resolver} {es : List Cause} {x : Str}

/-! ### C50 -/

theorem fst_iff {α β : Type} {o o' : Option (α × β)} {a : α} (h : o.map Prod.fst = o'.map Prod.fst) :
    (∃ b, o = some (a, b)) ↔ ∃ b, o' = some (a, b) := by
  have : ∀ o : Option (α × β), (∃ b, o = some (a, b)) ↔ o.map Prod.fst = some a := by
    rintro (_ | ⟨c, b⟩) <;> simp
  rw [this, this, h]

/-- C50, for lines that only the resolver rejects (and for any others): with the program `bad` in the
history or without it, the resolver accepts the same programs, rejects the same programs with the same
errors, and panics on the same programs, as long as they read no name that `bad` declares at its top
level. Missing to C50: programs that read such a name (`rejected_line_false`), and that the locations
are the same. -/
theorem rejected_program_partial (h : AfterPrograms (history ++ [bad] ++ later) rs) (h' : AfterPrograms (history ++ later) rs')
    (hr : ∀ p ∈ later ++ [sts], ∀ x, DeclaresGlobal bad x → ¬ ReadsName p x)
    (hn : actsOf (history ++ [bad] ++ later ++ [sts]) ≤ 65536) :
    ((∃ r q, rs.resolve sts = .done (.ok r, q)) ↔ ∃ r q, rs'.resolve sts = .done (.ok r, q)) ∧
    (∀ es, (∃ q, rs.resolve sts = .done (.error es, q)) ↔ ∃ q, rs'.resolve sts = .done (.error es, q)) ∧
    ∀ m, rs.resolve sts = .panic m ↔ rs'.resolve sts = .panic m := by
  have hf := faults_without history later bad sts hr hn
  refine ⟨?_, ?_, ?_⟩
  · rw [resolves_iff h, resolves_iff h', ← program_fine, ← program_fine]
    exact fst_iff hf
  · intro es
    rw [rejected_iff h, rejected_iff h']
    exact and_congr_right fun _ => fst_iff hf
  · intro m
    rw [panics_iff h, panics_iff h']
    exact and_congr_right fun _ => by rw [← Option.map_eq_none_iff (f := Prod.fst), hf, Option.map_eq_none_iff]

/-- C50, for a program that declares nothing at its top level: it changes nothing for any later program. -/
theorem rejected_undeclaring_partial (h : AfterPrograms (history ++ [bad] ++ later) rs)
    (h' : AfterPrograms (history ++ later) rs') (hb : ∀ s ∈ bad, declaredBy s = [])
    (hn : actsOf (history ++ [bad] ++ later ++ [sts]) ≤ 65536) :
    ((∃ r q, rs.resolve sts = .done (.ok r, q)) ↔ ∃ r q, rs'.resolve sts = .done (.ok r, q)) ∧
    (∀ es, (∃ q, rs.resolve sts = .done (.error es, q)) ↔ ∃ q, rs'.resolve sts = .done (.error es, q)) ∧
    ∀ m, rs.resolve sts = .panic m ↔ rs'.resolve sts = .panic m :=
  rejected_program_partial h h' (fun _ _ x ⟨s, hs, hx⟩ => by rw [hb s hs] at hx; cases hx) hn

/-- Example: the program `return; a = super` is rejected and declares nothing; then `var a = a` is rejected
and `a` can be declared and read, as without it. -/
example : (∀ s ∈ [Stmt.return .literalNil ⟨1, 1⟩, .expression (.assign c!"a" .placeholder (.super .placeholder c!"m" ⟨1, 13⟩) ⟨1, 9⟩)],
      declaredBy s = []) ∧
    programFaults [[]] [.return .literalNil ⟨1, 1⟩, .expression (.assign c!"a" .placeholder (.super .placeholder c!"m" ⟨1, 13⟩) ⟨1, 9⟩)] =
      some ([⟨⟨1, 1⟩, some c!"return", "Cannot return from top-level code."⟩,
        ⟨⟨1, 13⟩, some c!"super", "Cannot use 'super' outside of a class."⟩], [[]]) :=
  ⟨by simp [declaredBy], by by_kernel⟩

/-- Example: a rejected `fun a` declares `a`, and nothing else. -/
example : DeclaresGlobal [.fun (.mk c!"a" (.mk [] [.expression (v c!"this" 2 3)] .plainFunction ⟨1, 5⟩))] x ↔ x = c!"a" := by
  simp [DeclaresGlobal, declaredBy]

/-! ### C45 -/

theorem bindings_next (history : List (List Stmt)) (sts : List Stmt) :
    bindingsOf (history ++ [sts]) = nextBindings (bindingsOf history) sts := by
  simp only [bindingsOf_foldl, List.foldl_append, List.foldl_cons, List.foldl_nil]

/-- At first, no declaration has begun. -/
theorem new_unbroken : ¬ IsBroken [] x ∧ ¬ IsDeclared [] x := by
  constructor <;> (intro h; cases h)

/-- A statement that does not declare `x` does not change it. -/
theorem other_statement {s : Stmt} (hx : x ∉ declaredBy s) :
    (IsBroken (history ++ [[s]]) x ↔ IsBroken history x) ∧ (IsDeclared (history ++ [[s]]) x ↔ IsDeclared history x) := by
  obtain ⟨g, e, _⟩ := foldl_global history []
  rw [← bindingsOf_foldl] at e
  obtain ⟨g', e', hs, _⟩ := next_global [s] g
  have hx : ¬ DeclaresGlobal [s] x := by simpa [DeclaresGlobal] using hx
  unfold IsBroken IsDeclared
  rw [bindings_next, e, e']
  exact ⟨(hs x .begun hx (by decide)).symm, (hs x .declared hx (by decide)).symm⟩

theorem head_room (hn : actsOf history ≤ 65535) : ∃ g, bindingsOf history = [g] ∧ ¬ 65535 < g.length := by
  obtain ⟨g, e, h⟩ := foldl_global history []
  exact ⟨g, e, by simp only [List.length_nil] at h; omega⟩

/-- Acts that declare a name and then nothing. -/
theorem declares_first {g : List (Str × Status)} {loc : SourceLoc} {as : List Act} (hg : ¬ 65535 < g.length)
    (h : Scoped (fun _ => False) as) : match perform [g] (.declare x loc :: as) with
    | .fine b | .fault _ b => (x, .begun) ∉ (b.drop (b.length - 1)).head?.getD [] ∧ (x, .declared) ∈ (b.drop (b.length - 1)).head?.getD []
    | .tooDeep => True := by
  have hl := level_leaves h [] (put x .declared g)
  rw [perform]
  have hf : (Act.declare x loc).fault [g] = none := by simp [Act.fault, hg]
  rw [hf]
  change match perform ([] ++ [put x .declared g]) as with
    | .fine b | .fault _ b => _
    | .tooDeep => True
  generalize perform ([] ++ [put x .declared g]) as = r at hl ⊢
  cases r with
  | fine b =>
    obtain ⟨l, g', rfl, _, hs, _⟩ := hl
    simp only [List.length_append, List.length_cons, List.length_nil, Nat.add_sub_cancel, List.drop_left, List.head?_cons, Option.getD_some]
    rw [← hs x .begun (by simp) (by decide), ← hs x .declared (by simp) (by decide), mem_put, mem_put]
    simp
  | fault c b =>
    obtain ⟨l, g', rfl, hs, _⟩ := hl
    simp only [List.length_append, List.length_cons, List.length_nil, Nat.add_sub_cancel, List.drop_left, List.head?_cons, Option.getD_some]
    rw [← hs x .begun (by simp) (by decide), ← hs x .declared (by simp) (by decide), mem_put, mem_put]
    simp
  | tooDeep => trivial

theorem declaring {s : Stmt} {loc : SourceLoc} {as : List Act} (hn : actsOf history ≤ 65535)
    (ha : stmtActs .nowhere .nowhere s = .declare x loc :: as) (h : Scoped (fun _ => False) as)
    (hd : programFaults (bindingsOf history) [s] ≠ none) : ¬ IsBroken (history ++ [[s]]) x ∧ IsDeclared (history ++ [[s]]) x := by
  obtain ⟨g, e, hg⟩ := head_room hn
  have hp := declares_first (x := x) (loc := loc) hg h
  unfold IsBroken IsDeclared
  rw [bindings_next]
  unfold nextBindings
  rw [e] at hd ⊢
  simp only [programFaults, ha] at hd ⊢
  have hl := level_leaves (N := fun _ => True) (.append (.declare (loc := loc) (x := x) trivial) (h.mono fun _ h => h.elim)) [] g
  simp only [List.nil_append, List.cons_append] at hl
  generalize perform [g] (.declare x loc :: as) = r at hp hd hl ⊢
  cases r with
  | fine b =>
    obtain ⟨l, g', rfl, hl, _⟩ := hl
    cases l with
    | nil => simpa using hp
    | cons _ _ => simp at hl
  | fault c b => simpa using hp
  | tooDeep => exact absurd rfl hd

/-- A function or a class is declared, whether it has faults or not (unless its scopes are nested too deep). -/
theorem function_declares {d : FunDef} (hn : actsOf history ≤ 65535)
    (hd : programFaults (bindingsOf history) [.fun (.mk x d)] ≠ none) :
    ¬ IsBroken (history ++ [[.fun (.mk x d)]]) x ∧ IsDeclared (history ++ [[.fun (.mk x d)]]) x :=
  declaring hn (by rw [stmtActs]) (level_fun d .plain .nowhere _) hd

theorem class_declares {e : Option Expr} {ms : List NamedFun} {loc : SourceLoc} (hn : actsOf history ≤ 65535)
    (hd : programFaults (bindingsOf history) [.class x e ms loc] ≠ none) :
    ¬ IsBroken (history ++ [[.class x e ms loc]]) x ∧ IsDeclared (history ++ [[.class x e ms loc]]) x := by
  cases e with
  | none =>
    exact declaring (loc := loc) hn (by rw [stmtActs]; rfl) (.scope (Scoped.append (.declare trivial) (level_methods ms .plain _))) hd
  | some e =>
    exact declaring (loc := loc) hn (by rw [stmtActs]; rfl) ((level_superclassActs (x := x) (e := e)).append ((level_expr e .nowhere .subclass _).append
        (Scoped.append (.declare trivial) (Scoped.append (.declare trivial) (level_methods ms .subclass _)).scope).scope)) hd

theorem begins {g : List (Str × Status)} {loc : SourceLoc} (hg : ¬ 65535 < g.length) :
    ∃ g1, (∀ as, perform [g] (.begin x loc :: as) = perform [g1] as) ∧
      ((x, .begun) ∈ g1 ↔ (x, .begun) ∈ g ∨ (x, .declared) ∉ g) ∧ ((x, .declared) ∈ g1 ↔ (x, .declared) ∈ g) ∧
      g1.length ≤ g.length + 1 := by
  have hf : (Act.begin x loc).fault [g] = none := by simp [Act.fault, hg]
  by_cases h : (x, Status.begun) ∈ g ∨ (x, Status.declared) ∈ g
  · refine ⟨g, fun as => ?_, ?_, Iff.rfl, by omega⟩
    · rw [perform, hf]
      simp [Act.tooDeep, Act.after, h]
    · rcases h with h | h <;> simp [h]
  · have hl := @put_length x .begun g
    refine ⟨put x .begun g, fun as => ?_, ?_, ?_, hl⟩
    · rw [perform, hf]
      simp [Act.tooDeep, Act.after, h]
    · rw [mem_put]; simp [not_or.mp h]
    · rw [mem_put]; simp [not_or.mp h]

/-- C45: a variable without faults is declared. A variable whose initializer is at fault stays as it was
if it was declared before, and is broken otherwise. -/
theorem variable_declares {c : SlotIndex} {e : Expr} {loc : SourceLoc} (hn : actsOf (history ++ [[.var x c e loc]]) ≤ 65535) :
    (Succeeds history (.var x c e loc) →
      ¬ IsBroken (history ++ [[.var x c e loc]]) x ∧ IsDeclared (history ++ [[.var x c e loc]]) x) ∧
    (Fails history (.var x c e loc) →
      (IsBroken (history ++ [[.var x c e loc]]) x ↔ IsBroken history x ∨ ¬ IsDeclared history x) ∧
      (IsDeclared (history ++ [[.var x c e loc]]) x ↔ IsDeclared history x)) := by
  rw [actsOf_append] at hn
  simp only [actsOf, stmtsActs, List.append_nil] at hn
  obtain ⟨g, n0, hg0⟩ := foldl_global history []
  rw [← bindingsOf_foldl] at n0
  have ha : stmtActs .nowhere .nowhere (.var x c e loc) = .begin x loc :: (exprActs .nowhere .nowhere e ++ [.declare x loc]) := by
    rw [stmtActs]
  rw [ha] at hn
  simp only [List.length_cons, List.length_append, List.length_nil] at hn hg0
  obtain ⟨g1, e1, hb1, hd1, hg1⟩ := begins (x := x) (loc := loc) (g := g) (by omega)
  have hl := level_leaves (level_expr e .nowhere .nowhere (fun _ => False)) [] g1
  have hp : perform [g] (.begin x loc :: (exprActs .nowhere .nowhere e ++ [.declare x loc])) =
      match perform [g1] (exprActs .nowhere .nowhere e) with
      | .fine b' => perform b' [.declare x loc]
      | r => r := by
    rw [e1, perform_then]
    cases perform [g1] (exprActs .nowhere .nowhere e) <;> rfl
  unfold Succeeds Fails IsBroken IsDeclared
  rw [bindings_next]
  unfold nextBindings
  rw [n0]
  simp only [programFaults, ha, hp, List.head?_cons, Option.getD_some]
  simp only [List.nil_append] at hl
  generalize perform [g1] (exprActs .nowhere .nowhere e) = r at hl ⊢
  cases r with
  | fine b =>
    obtain ⟨l, g2, rfl, hl, _, hg2⟩ := hl
    cases List.length_eq_zero_iff.mp hl
    have hq : perform ([] ++ [g2]) [.declare x loc] = .fine [put x .declared g2] := by
      have : ¬ 65535 < g2.length := by omega
      simp [perform, Act.fault, this, Act.tooDeep, Act.after]
    dsimp only
    rw [hq]
    constructor
    · intro _
      simp only [List.head?_cons, Option.getD_some]
      rw [mem_put, mem_put]
      simp
    · rintro ⟨_, _, h⟩
      cases h
  | fault c b =>
    obtain ⟨l, g2, rfl, hs, hg2⟩ := hl
    simp only [List.length_append, List.length_cons, List.length_nil, Nat.add_sub_cancel, List.drop_left, Option.map_some,
      List.head?_cons, Option.getD_some]
    constructor
    · rintro ⟨_, h⟩
      cases h
    · intro _
      rw [← hs x .begun (by simp) (by decide), ← hs x .declared (by simp) (by decide), hb1, hd1]
      exact ⟨Iff.rfl, Iff.rfl⟩
  | tooDeep =>
    constructor
    · rintro ⟨_, h⟩
      cases h
    · rintro ⟨_, _, h⟩
      cases h

/-- C45: exactly the broken globals cannot be read, and nothing else is wrong with reading a global. -/
theorem read_iff (h : AfterPrograms history rs) (hn : actsOf history ≤ 65535) (hx : x ≠ c!"this") {slot : VarLoc} {loc : SourceLoc} :
    ((∃ q, rs.resolve [.print (.variable x slot loc)] = .done (.error [ownInitializer x loc], q)) ↔ IsBroken history x) ∧
    ((∃ r q, rs.resolve [.print (.variable x slot loc)] = .done (.ok r, q)) ↔ ¬ IsBroken history x) := by
  obtain ⟨g, e, hg⟩ := head_room hn
  have hu : useFault [g] x loc = none := if_neg fun h => hg h.2
  have ha : stmtActs .nowhere .nowhere (.print (.variable x slot loc)) = [.read x loc] := by
    rw [stmtActs, exprActs, readActs, if_neg fun h => hx h.1]
  have hh : (bindingsOf history).head?.getD [] = g := by rw [e]; rfl
  rw [rejected_iff h, resolves_iff h, ← program_fine]
  unfold IsBroken
  rw [hh, e, programFaults, ha, perform, Act.fault]
  by_cases hb : (x, Status.begun) ∈ g
  · rw [if_pos (show _ ∈ [g].head?.getD [] from hb)]
    simp [hb, programFaults]
  · rw [if_neg (show ¬ _ ∈ [g].head?.getD [] from hb), hu]
    simp [hb, programFaults, perform, Act.tooDeep]

/-- Example: `var a = this` breaks `a`; then `fun a` and `var a = nil` declare it; then `var a = this` does no harm. -/
example :
    let bad : Stmt := .var c!"a" .placeholder (v c!"this" 1 9) ⟨1, 5⟩
    let good : Stmt := .var c!"a" .placeholder .literalNil ⟨1, 5⟩
    Fails [] bad ∧ IsBroken [[bad]] c!"a" ∧ Succeeds [[bad]] good ∧ ¬ IsBroken [[bad], [good]] c!"a" ∧
      Fails [[bad], [good]] bad ∧ ¬ IsBroken [[bad], [good], [bad]] c!"a" := by
  have h1 : programFaults [[]] [.var c!"a" .placeholder (v c!"this" 1 9) ⟨1, 5⟩] =
      some ([⟨⟨1, 9⟩, some c!"this", "Cannot use 'this' outside of a class."⟩], [[(c!"a", .begun)]]) := by by_kernel
  have h2 : programFaults [[(c!"a", .begun)]] [.var c!"a" .placeholder .literalNil ⟨1, 5⟩] =
      some ([], [[(c!"a", .declared)]]) := by by_kernel
  have h3 : programFaults [[(c!"a", .declared)]] [.var c!"a" .placeholder (v c!"this" 1 9) ⟨1, 5⟩] =
      some ([⟨⟨1, 9⟩, some c!"this", "Cannot use 'this' outside of a class."⟩], [[(c!"a", .declared)]]) := by by_kernel
  simp only [Fails, Succeeds, IsBroken, bindingsOf, List.foldl_cons, List.foldl_nil, h1, h2, h3]
  exact ⟨⟨_, _, rfl⟩, by simp, ⟨_, rfl⟩, by simp, ⟨_, _, rfl⟩, by simp⟩

end Ws.Properties
