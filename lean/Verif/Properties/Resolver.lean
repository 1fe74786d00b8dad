import Verif.Proofs.Resolve.Top
import Verif.Model.Driver
import Verif.Properties.Parser
/-! Properties C35–C47 of the resolver. -/
namespace Ws.Properties
open Ws Spec

variable {env : Env} {source : Str} {repl : Bool} {sts sts' : List Stmt} {rs rs' : Resolver}

/-- A resolver after some history of programs, whatever their results. (The REPL uses one resolver for
all its lines; `resolve` uses a new one.) -/
inductive Session : Resolver → Prop
  | new : Session .new
  | next {rs sts r rs'} : Session rs → rs.resolve sts = .done (r, rs') → Session rs'

/-- The names in the global scope of a resolver, in order of their slots. -/
def globals (rs : Resolver) : List Str := (rs.scopes.getLast?.getD []).map (·.1)

theorem new_wf : Wf .new where
  nonempty := by simp [Resolver.new]
  depth := by simp [Resolver.new, varLocMaxDistance]
  scope s hs := by
    simp only [Resolver.new, List.mem_singleton] at hs
    subst hs
    exact ⟨by simp, by simp [Scope.names]⟩

theorem session_kept (h : Session rs) : Kept .new rs := by
  induction h with
  | new => exact .refl new_wf
  | next _ h ih => exact ih.trans (resolve_kept ih.wf h)

theorem session_wf (h : Session rs) : Wf rs := (session_kept h).wf

/-- C37: whatever programs a resolver has been given, it is afterwards at the global scope, outside any
function or class. -/
theorem state_restored (h : Session rs) :
    rs.scopes.length = 1 ∧ rs.functionType = .noFunction ∧ rs.classType = .noClass :=
  ⟨(session_kept h).shape.length, (session_kept h).shape.functionType, (session_kept h).shape.classType⟩

theorem session_scopes (h : Session rs) : ∃ g : Scope, rs.scopes = [g] ∧ globals rs = g.names ∧ rs.names = [globals rs] := by
  have := (state_restored h).1
  match hs : rs.scopes, this with
  | [g], _ => exact ⟨g, rfl, by simp [globals, hs, Scope.names], by simp [globals, Resolver.names, hs, Scope.names]⟩

theorem session_nodup (h : Session rs) : (globals rs).Nodup := by
  obtain ⟨g, h1, h2, _⟩ := session_scopes h
  rw [h2]
  exact ((session_wf h).scope g (by simp [h1])).nodup

/-- A failure inside a function inside a class inside a block. -/
def failing : List Stmt :=
  [.block [.class c!"A" none [.mk c!"m" (.mk [] [.expression (.super .placeholder c!"m" ⟨4, 5⟩)] .method ⟨3, 3⟩)] ⟨2, 7⟩]]
example : ∃ rs, Session rs ∧ Resolver.new.resolve failing =
    .done (.error [⟨⟨4, 5⟩, some c!"super", "Cannot use 'super' in a class with no superclass."⟩], rs) :=
  have h : Resolver.new.resolve failing =
    .done (.error [⟨⟨4, 5⟩, some c!"super", "Cannot use 'super' in a class with no superclass."⟩], .new) := by by_kernel
  ⟨_, .next .new h, h⟩

/-! ### C35, C36, C43, C44: locations and slots -/

theorem ok_steps (hs : Session rs) (h : rs.resolve sts = .done (.ok sts', rs')) :
    AtEach EventOk [globals rs] (stmtsEvents sts') ∧ namesAfter [globals rs] (stmtsEvents sts') = [globals rs'] := by
  have st := resolved_steps (resolve_ok h) (session_wf hs)
  obtain ⟨_, _, _, e⟩ := session_scopes hs
  obtain ⟨_, _, _, e'⟩ := session_scopes (.next hs h)
  have hev : itemEvents (.nodes (sts'.map .stmt)) = stmtsEvents sts' := (stmtsEvents_eq sts').symm
  rw [hev] at st
  exact ⟨by rw [← e]; exact st.ok, by rw [← e, ← e', st.names]⟩

/-- C35: in a resolved program every use of a variable has the location of the innermost binding of its
name, or that of a new global; variable declarations have the slot of their name. -/
theorem locations (hs : Session rs) (h : rs.resolve sts = .done (.ok sts', rs')) :
    AtEach EventOk [globals rs] (stmtsEvents sts') := (ok_steps hs h).1

/-- C35 for a new resolver. -/
theorem locations_new (h : resolve sts = .done (.ok sts')) : AtEach EventOk [[]] (stmtsEvents sts') := by
  unfold resolve at h
  simp only [bind, Outcome.bind] at h
  cases hr : Resolver.new.resolve sts with
  | done q =>
    obtain ⟨r, rs'⟩ := q
    rw [hr] at h
    cases h
    exact locations .new hr
  | panic m => rw [hr] at h; cases h
  | diverge => rw [hr] at h; cases h

/-- A resolved variable. -/
def u (name : Str) (distance index line column : Nat) : Expr := .variable name ⟨distance, index⟩ ⟨line, column⟩

/-- Globals, parameters and variables of an enclosing function, used before and after their declaration. -/
def scoping : Str := c!"var a = b\nfun f(x)\n  var y = x\n  fun g()\n    y = a\n    f(c)\n  return g\n"
def scopingTree : List Stmt :=
  [.var c!"a" ⟨0⟩ (u c!"b" 0 1 1 9) ⟨1, 5⟩,
    .fun (.mk c!"f" (.mk [⟨c!"x", ⟨2, 7⟩⟩]
      [.var c!"y" ⟨1⟩ (u c!"x" 0 0 3 11) ⟨3, 7⟩,
        .fun (.mk c!"g" (.mk []
          [.expression (.assign c!"y" ⟨1, 1⟩ (u c!"a" 2 0 5 9) ⟨5, 7⟩),
            .expression (.call (u c!"f" 2 2 6 5) [u c!"c" 2 3 6 7] ⟨6, 6⟩)] .plainFunction ⟨4, 7⟩)),
        .return (u c!"g" 0 2 7 10) ⟨7, 3⟩] .plainFunction ⟨2, 5⟩))]

/-- `source` is accepted and resolved, by a new resolver. -/
def Gives (source : Str) (sts : List Stmt) : Prop := wasmParseString asciiEnv source = .done (.ok sts)

theorem gives (h : Gives source sts') :
    ∃ sts rs', Accepts asciiEnv false source sts ∧ Resolver.new.resolve sts = .done (.ok sts', rs') := by
  unfold Gives wasmParseString at h
  simp only [bind, Outcome.bind] at h
  cases hp : parse asciiEnv source with
  | done r =>
    rw [hp] at h
    cases r with
    | error e => cases h
    | ok sts =>
      refine ⟨sts, ?_⟩
      change resolve sts = .done (.ok sts') at h
      unfold resolve at h
      simp only [bind, Outcome.bind] at h
      cases hr : Resolver.new.resolve sts with
      | done q =>
        obtain ⟨r, rs'⟩ := q
        rw [hr] at h
        cases h
        exact ⟨rs', hp, rfl⟩
      | panic m => rw [hr] at h; cases h
      | diverge => rw [hr] at h; cases h
  | panic m => rw [hp] at h; cases h
  | diverge => rw [hp] at h; cases h

theorem scoping_ok : Gives scoping scopingTree := by unfold Gives; by_kernel

/-- The hypotheses of `locations` hold, and the assignment to `y` in `g` is one of the events. -/
example : (∃ sts rs', Session .new ∧ Resolver.new.resolve sts = .done (.ok scopingTree, rs')) ∧
    (stmtsEvents scopingTree)[10]? = some (.use c!"y" ⟨1, 1⟩) ∧
    namesAfter [[]] ((stmtsEvents scopingTree).take 10) = [[], [c!"x", c!"y", c!"g"], [c!"a", c!"b", c!"f"]] :=
  have ⟨sts, rs', _, h⟩ := gives scoping_ok
  ⟨⟨sts, rs', .new, h⟩, by by_kernel, by by_kernel⟩

/-- C36: in one scope of a resolved program, the same name always has the same slot; and different names
have different slots provided no scope has more than 256 names. -/
theorem slots_partial (hs : Session rs) (h : rs.resolve sts = .done (.ok sts', rs')) {r r' : Ref}
    (hr : r ∈ programRefs sts') (hr' : r' ∈ programRefs sts') (he : r.scope = r'.scope) :
    (r.name = r'.name → r.slot = r'.slot) ∧
      (SmallScopes [globals rs] (stmtsEvents sts') → r.slot = r'.slot → r.name = r'.name) :=
  (refs_slots rfl (by simp) (by simp) (by simpa using session_nodup hs) (fresh_stmts sts') (locations hs h) hr hr' he).2

/-- Every reference in a resolved program is to a scope that is open. -/
theorem refs_open (hs : Session rs) (h : rs.resolve sts = .done (.ok sts', rs')) {r : Ref}
    (hr : r ∈ programRefs sts') : r.scope.isSome :=
  (refs_slots rfl (by simp) (by simp) (by simpa using session_nodup hs) (fresh_stmts sts') (locations hs h) hr hr rfl).1

example : programRefs scopingTree = [⟨some 0, c!"a", 0⟩, ⟨some 0, c!"b", 1⟩, ⟨some 1, c!"y", 1⟩, ⟨some 1, c!"x", 0⟩,
    ⟨some 0, c!"a", 0⟩, ⟨some 1, c!"y", 1⟩, ⟨some 0, c!"f", 2⟩, ⟨some 0, c!"c", 3⟩, ⟨some 1, c!"g", 2⟩] := by by_kernel
example : SmallScopes [globals .new] (stmtsEvents scopingTree) := by
  have : ∀ es : List Event, (∀ n ≤ es.length, ∀ s ∈ namesAfter [globals .new] (es.take n), s.length ≤ 256) →
      SmallScopes [globals .new] es := by
    rintro es h before after rfl
    have := h before.length (by simp)
    rwa [List.take_left] at this
  refine this _ ?_
  have h : (List.range 17).all (fun n => (namesAfter [globals .new] ((stmtsEvents scopingTree).take n)).all
      (fun s => s.length ≤ 256)) = true := by by_kernel
  simp only [List.all_eq_true, List.mem_range, decide_eq_true_eq] at h
  intro n hn s hs
  have l : (stmtsEvents scopingTree).length = 16 := by by_kernel
  exact h n (by omega) s hs

/-- The declaration of the global whose name is the `n`-th letter after `一`. -/
def letter (n : Nat) : Stmt := .var [Char.ofNat (19968 + n)] .placeholder .literalNil ⟨n + 1, 5⟩

/-- 257 different global variables. -/
def many : List Stmt := (List.range 257).map letter

/-- C36 is false beyond 256 names: the first and the last of 257 different globals share slot 0. -/
theorem slots_alias : resolve many = .done (.ok ((List.range 257).map fun n =>
    .var [Char.ofNat (19968 + n)] ⟨if n = 256 then 0 else n⟩ .literalNil ⟨n + 1, 5⟩)) := by by_kernel

/-- C43: names keep their position in the global scope, whatever program is resolved, successfully or not. -/
theorem globals_kept (hs : Session rs) {r} (h : rs.resolve sts = .done (r, rs')) : globals rs <+: globals rs' := by
  obtain ⟨g, e1, e2, _⟩ := session_scopes hs
  obtain ⟨g', e1', e2', _⟩ := session_scopes (Session.next hs h)
  obtain ⟨g2, e3, e4⟩ := (resolve_kept (session_wf hs) h).grows 0 g (by simp [e1])
  rw [e1'] at e3
  simp only [List.getElem?_cons_zero, Option.some.injEq] at e3
  subst e3
  rw [e2, e2']
  exact e4

/-- A resolver after further programs. -/
inductive Onward : Resolver → Resolver → Prop
  | refl {rs : Resolver} : Onward rs rs
  | next {rs rs1 : Resolver} {sts r rs2} : Onward rs rs1 → rs1.resolve sts = .done (r, rs2) → Onward rs rs2

theorem onward_session (hs : Session rs) (h : Onward rs rs') : Session rs' := by
  induction h with
  | refl => exact hs
  | next _ h ih => exact .next ih h

/-- C43: names keep their position in the global scope for the rest of the session. -/
theorem globals_kept_onward (hs : Session rs) (h : Onward rs rs') : globals rs <+: globals rs' := by
  induction h with
  | refl => exact List.prefix_rfl
  | next h1 h ih => exact ih.trans (globals_kept (onward_session hs h1) h)

/-- C43: the slot of every reference to a global is its position in the global scope. -/
theorem global_slot (hs : Session rs) (h : rs.resolve sts = .done (.ok sts', rs')) {r : Ref}
    (hr : r ∈ programRefs sts') (h0 : r.scope = some 0) : ∃ k : Nat, (globals rs')[k]? = some r.name ∧ r.slot = k % 256 :=
  refs_global (session_nodup hs) (ok_steps hs h).1 (ok_steps hs h).2 hr h0

/-- C43: two references to a global have the same slot, however far apart in a session. -/
theorem global_slots_stable (hs : Session rs) (h : rs.resolve sts = .done (.ok sts', rs')) {rs1 rs2 : Resolver}
    {sts1 sts2 : List Stmt} (hl : Onward rs' rs1) (h2 : rs1.resolve sts1 = .done (.ok sts2, rs2)) {r r' : Ref}
    (hr : r ∈ programRefs sts') (h0 : r.scope = some 0) (hr' : r' ∈ programRefs sts2) (h0' : r'.scope = some 0)
    (hn : r.name = r'.name) : r.slot = r'.slot := by
  have hs' : Session rs' := .next hs h
  have hs1 := onward_session hs' hl
  obtain ⟨k, h3, h4⟩ := global_slot hs h hr h0
  obtain ⟨k', h3', h4'⟩ := global_slot hs1 h2 hr' h0'
  have hp := (globals_kept_onward hs' hl).trans (globals_kept hs1 h2)
  have h5 := prefix_get hp h3
  rw [hn] at h5
  have := (List.getElem?_inj (List.getElem?_eq_some_iff.mp h5).1 (session_nodup (.next hs1 h2))).mp (h5.trans h3'.symm)
  rw [h4, h4', this]

/-- A session in which a line fails between two uses of `b`. -/
example :
    let ab : Scope := [(c!"a", ⟨0, .definedVar⟩), (c!"b", ⟨1, .undefinedVar⟩)]
    let rs1 : Resolver := ⟨[ab], .noFunction, .noClass⟩
    let rs2 : Resolver := ⟨[ab ++ [(c!"c", ⟨2, .undefinedVar⟩)]], .noFunction, .noClass⟩
    let rs3 : Resolver := ⟨[ab ++ [(c!"c", ⟨2, .undefinedVar⟩), (c!"d", ⟨3, .undefinedVar⟩)]], .noFunction, .noClass⟩
    Resolver.new.resolve [.var c!"a" .placeholder (v c!"b" 1 9) ⟨1, 5⟩] =
      .done (.ok [.var c!"a" ⟨0⟩ (u c!"b" 0 1 1 9) ⟨1, 5⟩], rs1) ∧
    rs1.resolve [.print (v c!"c" 1 7), .return .literalNil ⟨1, 1⟩] =
      .done (.error [⟨⟨1, 1⟩, some c!"return", "Cannot return from top-level code."⟩], rs2) ∧
    rs2.resolve [.print (v c!"b" 1 7), .print (v c!"d" 2 7)] =
      .done (.ok [.print (u c!"b" 0 1 1 7), .print (u c!"d" 0 3 2 7)], rs3) :=
  ⟨by by_kernel, by by_kernel, by by_kernel⟩

/-- C44: no name is declared twice in a scope other than the global scope. -/
theorem no_redeclaration (hs : Session rs) (h : rs.resolve sts = .done (.ok sts', rs')) :
    AtEach NotAgain [globals rs] (stmtsEvents sts') := by
  obtain ⟨g, e1, _, e⟩ := session_scopes hs
  have := (resolved_notAgain (resolve_ok h) (session_wf hs) (.inr ?_)).1
  · rw [e] at this
    have hev : itemEvents (.nodes (sts'.map .stmt)) = stmtsEvents sts' := (stmtsEvents_eq sts').symm
    rwa [hev] at this
  · intro s ss hss hne
    rw [e1] at hss
    cases hss
    exact absurd rfl hne

/-- C44: a global may be redeclared, and then keeps its slot. -/
theorem redeclared_global (hs : Session rs) {k : Nat} {x : Str} (hk : (globals rs)[k]? = some x)
    (hl : (globals rs).length ≤ 65535) (c : SlotIndex) (loc : SourceLoc) :
    ∃ rs', rs.resolve [.var x c .literalNil loc] = .done (.ok [.var x ⟨k % 256⟩ .literalNil loc], rs') ∧
      globals rs' = globals rs := by
  have hw := session_wf hs
  obtain ⟨g, e1, e2, _⟩ := session_scopes hs
  have hg := hw.scope g (by simp [e1])
  obtain ⟨sc, ft, ct⟩ := rs
  dsimp only at e1
  subst e1
  rw [e2] at hk hl
  have lim : ¬ g.length > varLocMaxDistance := by
    simp only [Scope.names, List.length_map] at hl
    simp only [varLocMaxDistance]
    omega
  obtain ⟨st, hst⟩ : ∃ st, g.get x = some st := by
    cases h : g.get x with
    | some st => exact ⟨st, rfl⟩
    | none => exact absurd (List.mem_of_getElem? hk) (scope_get_none.mp h)
  have slot : st.slotIndex = k := by
    have := scope_get_slot hg hst
    exact (List.getElem?_inj (List.getElem?_eq_some_iff.mp this).1 hg.nodup).mp (this.trans hk.symm)
  have fin : ∃ g' : Scope, g'.names = g.names ∧ resolveStmt (.var x c .literalNil loc) ⟨[g], ft, ct⟩ =
      .ok (.var x ⟨k % 256⟩ .literalNil loc) ⟨[g'], ft, ct⟩ := by
    have len : ∀ d, ¬ (g.setState x d).length > varLocMaxDistance := by
      intro d
      have : (g.setState x d).names.length = g.names.length := by rw [setState_names]
      simp only [Scope.names, List.length_map] at this
      rwa [this]
    obtain ⟨i, d⟩ := st
    dsimp only at slot
    subst slot
    cases d with
    | undefinedVar =>
      refine ⟨(g.setState x .declaredVar).setState x .definedVar, by rw [setState_names, setState_names], ?_⟩
      simp [resolveStmt, resolveExpr, bind, M.bind, pure, M.pure, declare, define, M.get, M.modify, ensureScopeIndexLimit, lim,
        hst, Resolver.setInnermost, len, get_setState hst]
    | declaredVar =>
      refine ⟨g.setState x .definedVar, setState_names, ?_⟩
      simp [resolveStmt, resolveExpr, bind, M.bind, pure, M.pure, declare, define, M.get, M.modify, ensureScopeIndexLimit, lim,
        hst, Resolver.setInnermost, Resolver.isInGlobalScope]
    | definedVar =>
      refine ⟨g, rfl, ?_⟩
      simp [resolveStmt, resolveExpr, bind, M.bind, pure, M.pure, declare, define, M.get, ensureScopeIndexLimit, lim,
        hst, Resolver.isInGlobalScope]
  obtain ⟨g', hn, hr⟩ := fin
  refine ⟨⟨[g'], ft, ct⟩, ?_, ?_⟩
  · simp [Resolver.resolve, resolveLoop, hr, bind, Outcome.bind]
  · rw [e2, ← hn]
    simp [globals, Scope.names]

example : Gives c!"var a = nil\nvar b = nil\nvar a = nil\n"
    [.var c!"a" ⟨0⟩ .literalNil ⟨1, 5⟩, .var c!"b" ⟨1⟩ .literalNil ⟨2, 5⟩, .var c!"a" ⟨0⟩ .literalNil ⟨3, 5⟩] := by
  unfold Gives; by_kernel
/-- C44: two parameters, or a parameter and a variable, may not have the same name. -/
example : wasmParseString asciiEnv c!"fun f(a, a)\n  return a\n" =
      .done (.error [⟨⟨1, 10⟩, some c!"a", "Variable with this name already declared in this scope."⟩]) ∧
    wasmParseString asciiEnv c!"fun f(a)\n  var a = nil\n" =
      .done (.error [⟨⟨2, 7⟩, some c!"a", "Variable with this name already declared in this scope."⟩]) :=
  ⟨by by_kernel, by by_kernel⟩

/-! ### C38, C45, C46: what resolved programs do not contain -/

theorem part_was (hs : Session rs) (h : rs.resolve sts = .done (.ok sts', rs')) {x : Node} (hx : Part x sts') :
    WasResolved x 1 := by
  obtain ⟨s, hs', hx⟩ := hx
  have := resolved_sub (resolve_ok h) (session_wf hs) x ⟨.stmt s, List.mem_map_of_mem hs', hx⟩
  rwa [(state_restored hs).1] at this

/-- C38: every return of a resolved program is in a function. -/
theorem return_in_function (hs : Session rs) (h : rs.resolve sts = .done (.ok sts', rs')) {e : Expr} {loc : SourceLoc}
    {s : Stmt} (hm : s ∈ sts') : ¬ Direct (.stmt (.return e loc)) (.stmt s) := by
  intro hd
  obtain ⟨a, rs1, rs2, h1, _, h3⟩ := resolved_direct (resolve_ok h) (session_wf hs) (.stmt (.return e loc))
    ⟨.stmt s, List.mem_map_of_mem hm, rfl, hd⟩
  refine (return_inv h1).1 ?_
  rw [h3]
  exact (state_restored hs).2.1

/-- C38: a return in an initializer returns nothing. -/
theorem initializer_returns (hs : Session rs) (h : rs.resolve sts = .done (.ok sts', rs')) {x : Node} (hx : Part x sts') :
    InitReturnsNil x := by
  cases x with
  | stmt s =>
    cases s with
    | «class» n e ms loc =>
      rcases was_inv (part_was hs h hx) with ⟨a, rs1, rs2, h1, hw, _⟩ | ⟨_, _, _, _, _, e, _⟩
      · exact class_initReturns h1 hw
      · cases e
    | _ => trivial
  | _ => trivial

/-- Returns in an initializer and in a function in it. -/
def returns : Str := c!"class A\n  init()\n    fun f()\n      return this\n    return\n"
def returnsTree : List Stmt :=
  [.class c!"A" none [.mk c!"init" (.mk []
    [.fun (.mk c!"f" (.mk [] [.return (u c!"this" 2 0 4 14) ⟨4, 7⟩] .plainFunction ⟨3, 9⟩)),
      .return .literalNil ⟨5, 5⟩] .initializer ⟨2, 3⟩)] ⟨1, 7⟩]
theorem returns_ok : Gives returns returnsTree := by unfold Gives; by_kernel
example : Direct (.stmt (.return .literalNil ⟨5, 5⟩)) (.fn (.mk []
    [.fun (.mk c!"f" (.mk [] [.return (u c!"this" 2 0 4 14) ⟨4, 7⟩] .plainFunction ⟨3, 9⟩)),
      .return .literalNil ⟨5, 5⟩] .initializer ⟨2, 3⟩)) := .step (.tail _ (.head _)) rfl .refl
example : wasmParseString asciiEnv c!"return nil\n" =
      .done (.error [⟨⟨1, 1⟩, some c!"return", "Cannot return from top-level code."⟩]) ∧
    wasmParseString asciiEnv c!"class A\n  init()\n    return this\n" =
      .done (.error [⟨⟨3, 5⟩, some c!"return", "Cannot return a value from an initializer."⟩]) :=
  ⟨by by_kernel, by by_kernel⟩

/-- C45, first half: in blocks and functions of a resolved program, the initializer of a variable does
not read the variable. -/
theorem no_own_initializer_partial (hs : Session rs) (h : rs.resolve sts = .done (.ok sts', rs')) {x : Node} {s : Stmt}
    (hm : s ∈ sts') (hx : InScope x (.stmt s)) : NotOwnInitializer x := by
  obtain ⟨b, c, hb, ho, hc, hx⟩ := hx
  obtain ⟨a, ns, rs1, rs2, h1, hw, hl, rfl⟩ := opens_inv (part_was hs h ⟨s, hm, hb⟩) ho
  have hwas := (resolved_sub h1 hw x ⟨c, hc, hx⟩).mono hl
  cases x with
  | stmt s =>
    cases s with
    | var n c e loc =>
      rcases was_inv hwas with ⟨a, rs1, rs2, h1, hw, hl⟩ | ⟨_, _, _, _, _, e, _⟩
      · exact var_not_own h1 hw hl
      · cases e
    | _ => trivial
  | _ => trivial

example : wasmParseString asciiEnv c!"fun f()\n  var g = g\n" =
    .done (.error [⟨⟨2, 11⟩, some c!"g", "Cannot read local variable in its own initializer."⟩]) := by by_kernel

/-- C45, second half, is false: the initializer of the global `a` fails, and then `a` cannot be read. (It
could be read before.) -/
theorem failed_initializer :
    let rs1 : Resolver := ⟨[[(c!"a", ⟨0, .declaredVar⟩)]], .noFunction, .noClass⟩
    let readA : List Stmt := [.print (v c!"a" 1 7)]
    Resolver.new.resolve [.var c!"a" .placeholder (v c!"this" 1 9) ⟨1, 5⟩] =
      .done (.error [⟨⟨1, 9⟩, some c!"this", "Cannot use 'this' outside of a class."⟩], rs1) ∧
    rs1.resolve readA =
      .done (.error [⟨⟨1, 7⟩, some c!"a", "Cannot read local variable in its own initializer."⟩], rs1) ∧
    resolve readA = .done (.ok [.print (u c!"a" 0 0 1 7)]) :=
  ⟨by by_kernel, by by_kernel, by by_kernel⟩

/-- C46: no class of a resolved program names itself as its superclass. -/
theorem no_own_superclass (hs : Session rs) (h : rs.resolve sts = .done (.ok sts', rs')) {x : Node} (hx : Part x sts') :
    NotOwnSuperclass x := by
  cases x with
  | stmt s =>
    cases s with
    | «class» n e ms loc =>
      rcases was_inv (part_was hs h hx) with ⟨a, rs1, rs2, h1, hw, _⟩ | ⟨_, _, _, _, _, e, _⟩
      · exact class_not_own h1
      · cases e
    | _ => trivial
  | _ => trivial

example : wasmParseString asciiEnv c!"class A < A\n  f()\n    nil\n" =
    .done (.error [⟨⟨1, 11⟩, some c!"A", "A class cannot inherit from itself."⟩]) := by by_kernel

/-! ### C39: `this` and `super` -/

/-- The names in programs that the parser accepts are ordinary. -/
theorem accepted_ordinary (hE : EnvLaws env) (hS : Fits env source) (h : Accepts env repl source sts) {x : Node}
    (hx : Part x sts) : Ordinary x := by
  obtain ⟨ws, eof, hs, -, hG⟩ := accepted_derivable hE hS h
  have plain : ∀ {n loc}, SpelledAt (ws ++ [eof]) n loc → n ≠ c!"this" ∧ n ≠ c!"super" := by
    rintro n loc ⟨t, ht, hk, rfl, -⟩
    have := (identifier_text hE hs ht hk).1
    exact ⟨fun e => this .this (by rw [e]; rfl), fun e => this .super (by rw [e]; rfl)⟩
  have hF := names_from_tokens hE hS h hs hx
  cases x with
  | expr e =>
    cases e with
    | assign n c r loc =>
      obtain ⟨⟨t, ht, hk, e⟩, -⟩ := hF
      exact plain ⟨t, ht, hk, e, rfl⟩
    | «variable» n c loc =>
      rcases hF with hF | ⟨t, ht, hk, e, -⟩
      · exact (plain hF).2
      · have := scan_this hE hs ht hk
        rw [e] at this
        show n ≠ _
        rw [this]
        simp
    | _ => trivial
  | stmt s =>
    cases s with
    | var n c e loc => exact plain hF
    | «fun» f => exact plain hF
    | «class» n e ms loc =>
      refine ⟨(plain hF.1).1, (plain hF.1).2, ?_⟩
      rintro e rfl
      have := hF.2.1
      cases e with
      | «variable» y c l => exact ⟨y, c, l, rfl, (plain this).1⟩
      | _ => exact this.elim
    | _ => trivial
  | fn d => exact fun p hp => plain (hF.2 p hp)

/-- A resolver after some history of lines that the parser accepted. -/
inductive SourceSession (env : Env) : Resolver → Prop
  | new : SourceSession env .new
  | next {rs source repl sts r rs'} : SourceSession env rs → Fits env source → Accepts env repl source sts →
      rs.resolve sts = .done (r, rs') → SourceSession env rs'

theorem sourceSession (h : SourceSession env rs) : Session rs := by
  induction h with
  | new => exact .new
  | next _ _ _ h ih => exact .next ih h

theorem session_bound (h : Session rs) : Bound rs := by
  have := (state_restored h).2.2
  exact ⟨fun hc => absurd this hc, fun hc => by rw [this] at hc; cases hc⟩

theorem sourceSession_clean (hE : EnvLaws env) (h : SourceSession env rs) : GlobalClean rs := by
  induction h with
  | new =>
    intro g hg
    cases hg
    exact clean_nil
  | next h1 hS hA h ih =>
    obtain ⟨_, _, hl, _⟩ := resolve_done h
    have hs := sourceSession h1
    exact loop_clean _ _ (session_wf hs) ih (session_bound hs)
      (fun s hs x hx => accepted_ordinary hE hS hA ⟨s, hs, hx⟩) _ _ _ hl

/-- C39: in a resolved program every `this` is bound by the scope of the innermost class around it, and
every `super` by the scope around that, which exists. In particular both are only used in classes. -/
theorem this_and_super (hE : EnvLaws env) (hs : SourceSession env rs) (hS : Fits env source)
    (hA : Accepts env repl source sts) (h : rs.resolve sts = .done (.ok sts', rs')) :
    AtEach ClassUse [globals rs] (stmtsEvents sts') := by
  have hs' := sourceSession hs
  obtain ⟨g, e1, e2, e⟩ := session_scopes hs'
  have ho := ordinary_resolved (resolve_erase h) (fun s hs x hx => accepted_ordinary hE hS hA ⟨s, hs, hx⟩)
  have hg : Clean (globals rs) := by rw [e2]; exact sourceSession_clean hE hs g (by simp [e1])
  have hh : HeadClean rs.names := by
    intro s hs
    rw [e] at hs
    cases hs
    exact hg
  have hc : ClassCtx rs.classType rs.names := by
    refine ⟨?_, fun hc => absurd (state_restored hs').2.2 hc⟩
    intro i g' hl hi
    rw [e] at hl hi
    simp only [List.length_singleton] at hl
    have : i = 0 := by omega
    subst this
    cases hi
    exact hg
  have := (resolved_class (resolve_ok h) (session_wf hs') ?_ hc (.inr hh)).use
  · rw [e] at this
    have hev : itemEvents (.nodes (sts'.map .stmt)) = stmtsEvents sts' := (stmtsEvents_eq sts').symm
    rwa [hev] at this
  · rintro x ⟨n, hn, hx⟩
    obtain ⟨s, hs, rfl⟩ := List.mem_map.mp hn
    exact ho s hs x hx

/-- `this` and `super` in a function in a method of a subclass in a method of a class. -/
def classes : Str :=
  c!"class A\n  f()\n    class B < C\n      g()\n        fun k()\n          super.h\n        this\n    this\n"
def classesTree : List Stmt :=
  [.class c!"A" none [.mk c!"f" (.mk []
    [.class c!"B" (some (u c!"C" 2 1 3 15))
      [.mk c!"g" (.mk []
        [.fun (.mk c!"k" (.mk [] [.expression (.super ⟨3, 0⟩ c!"h" ⟨6, 11⟩)] .plainFunction ⟨5, 13⟩)),
          .expression (u c!"this" 1 0 7 9)] .method ⟨4, 7⟩)] ⟨3, 11⟩,
      .expression (u c!"this" 1 0 8 5)] .method ⟨2, 3⟩)] ⟨1, 7⟩]
theorem classes_ok : Gives classes classesTree := by unfold Gives; by_kernel
example : ∃ sts rs', EnvLaws asciiEnv ∧ SourceSession asciiEnv .new ∧ Fits asciiEnv classes ∧
    Accepts asciiEnv false classes sts ∧ Resolver.new.resolve sts = .done (.ok classesTree, rs') :=
  have ⟨sts, rs', hA, h⟩ := gives classes_ok
  ⟨sts, rs', asciiEnv_laws, .new, fits_of_small (by by_kernel), hA, h⟩
example : (stmtsEvents classesTree)[10]? = some (.use c!"super" ⟨3, 0⟩) ∧
    namesAfter [[]] ((stmtsEvents classesTree).take 10) =
      [[], [c!"k"], [c!"this"], [c!"super"], [c!"B"], [c!"this"], [c!"A", c!"C"]] :=
  ⟨by by_kernel, by by_kernel⟩
/-- Uses outside a class, and `super` in a class with no superclass although it is in a subclass. -/
example : wasmParseString asciiEnv c!"this\n" =
      .done (.error [⟨⟨1, 1⟩, some c!"this", "Cannot use 'this' outside of a class."⟩]) ∧
    wasmParseString asciiEnv c!"super.a\n" =
      .done (.error [⟨⟨1, 1⟩, some c!"super", "Cannot use 'super' outside of a class."⟩]) ∧
    wasmParseString asciiEnv c!"class A < B\n  f()\n    class C\n      g()\n        super.f\n" =
      .done (.error [⟨⟨5, 9⟩, some c!"super", "Cannot use 'super' in a class with no superclass."⟩]) :=
  ⟨by by_kernel, by by_kernel, by by_kernel⟩

/-! ### C40: panics -/

/-- C40: resolving ends, and panics only if more than 65535 scopes would be nested. -/
theorem resolve_total (hs : Session rs) : rs.resolve sts ≠ .diverge ∧
    ∀ m, rs.resolve sts = .panic m → m = "Too many nested lexical scopes" ∧ 65535 < 1 + stmtsDepth sts := by
  refine ⟨resolve_not_diverge (session_wf hs), fun m hm => ?_⟩
  have := resolve_panic (session_wf hs) hm
  rwa [(state_restored hs).1] at this

/-- C40: if more than 65535 scopes would be nested, resolving does not succeed. -/
theorem too_deep (hs : Session rs) (h : rs.resolve sts = .done (.ok sts', rs')) : 1 + stmtsDepth sts ≤ 65535 := by
  have := resolved_depth (resolve_ok h) (session_wf hs)
  rw [(state_restored hs).1] at this
  rw [stmtsDepth_eq]
  exact this

/-- Blocks nested `n` deep in a block. -/
def nest : Nat → Stmt
  | 0 => .block []
  | n + 1 => .block [nest n]

theorem resolve_nest (n : Nat) : ∀ rs : Resolver, resolveStmt (nest n) rs =
    if rs.scopes.length + n < 65535 then .ok (nest n) rs else .panic "Too many nested lexical scopes" := by
  induction n with
  | zero =>
    intro rs
    simp only [nest, resolveStmt, resolveStmts, inNewScope, bind, M.bind, beginScope, varLocMaxDistance]
    by_cases h : rs.scopes.length + 0 < 65535
    · rw [if_pos h, if_neg (by omega)]
      rfl
    · rw [if_neg h, if_pos (by omega)]
  | succ n ih =>
    intro rs
    simp only [nest, resolveStmt, resolveStmts, inNewScope, bind, M.bind, beginScope, varLocMaxDistance]
    by_cases h : rs.scopes.length ≥ 65535
    · rw [if_pos h, if_neg (by omega)]
    · rw [if_neg h]
      dsimp only
      simp only [andFinally, M.bind, ih, List.length_cons]
      by_cases h' : rs.scopes.length + (n + 1) < 65535
      · rw [if_pos h', if_pos (by omega)]
        rfl
      · rw [if_neg h', if_neg (by omega)]

/-- C40: nested blocks are resolved up to the limit, and panic beyond it. -/
theorem nested_blocks (n : Nat) : resolve [nest n] =
    if n + 1 < 65535 then .done (.ok [nest n]) else .panic "Too many nested lexical scopes" := by
  unfold resolve Resolver.resolve
  simp only [resolveLoop, resolve_nest, bind, Outcome.bind]
  have : Resolver.new.scopes.length + n = n + 1 := by simp [Resolver.new, Nat.add_comm]
  rw [this]
  by_cases h : n + 1 < 65535
  · rw [if_pos h, if_pos h]
    rfl
  · rw [if_neg h, if_neg h]

/-! ### C41, C42: annotations -/

/-- C41: the resolved program is the program, but for locations and slots. -/
theorem only_locations (h : rs.resolve sts = .done (.ok sts', rs')) : eraseStmts sts' = eraseStmts sts := resolve_erase h

/-- What the resolver was given. -/
example : parse asciiEnv scoping = .done (.ok (eraseStmts scopingTree)) := by by_kernel

/-- C42: the result does not depend on the locations and slots in the program. -/
theorem annotations_ignored (h : eraseStmts sts = eraseStmts sts') : rs.resolve sts = rs.resolve sts' := resolve_same h

/-- C42: resolving a resolved program again, with the resolver as it was, changes nothing. -/
theorem resolve_again (h : rs.resolve sts = .done (.ok sts', rs')) : rs.resolve sts' = .done (.ok sts', rs') := by
  rw [← h]
  exact resolve_same (resolve_erase h)

example : resolve scopingTree = .done (.ok scopingTree) := by by_kernel

/-! ### C47: renaming -/

theorem new_rename (σ : Str → Str) : Resolver.new.rename σ = .new := rfl

/-- C47: renaming the variables of a program by an injective renaming that keeps `this` and `super`
renames the resolved program, or the errors, and changes nothing else. -/
theorem renamed {σ : Str → Str} (hσ : Renaming σ) (sts : List Stmt) :
    (∀ sts', resolve sts = .done (.ok sts') → resolve (renameStmts σ sts) = .done (.ok (renameStmts σ sts'))) ∧
    (∀ es, resolve sts = .done (.error es) →
      ∃ es', resolve (renameStmts σ sts) = .done (.error es') ∧ RenamedCauses σ es es') ∧
    (∀ m, resolve sts = .panic m → resolve (renameStmts σ sts) = .panic m) := by
  have h := loop_rename hσ sts .new
  rw [new_rename] at h
  unfold resolve
  simp only [bind, Outcome.bind, resolve_loop]
  revert h
  generalize resolveLoop sts .new = r
  generalize resolveLoop (renameStmts σ sts) .new = r'
  intro h
  cases h with
  | done ss es es' rs he =>
    cases he with
    | nil =>
      refine ⟨?_, by simp, by simp⟩
      intro sts' h
      simp at h
      simp [h]
    | cons hc hcs =>
      refine ⟨by simp, ?_, by simp⟩
      intro es h
      simp at h
      subst h
      exact ⟨_, rfl, .cons hc hcs⟩
  | panic m => exact ⟨by simp, by simp, fun m' h => by cases h; rfl⟩
  | diverge => exact ⟨by simp, by simp, by simp⟩

/-- Swap the names `a` and `y`. -/
def swap (x : Str) : Str := if x = c!"a" then c!"y" else if x = c!"y" then c!"a" else x
theorem swap_renaming : Renaming swap where
  inj x y h := by
    unfold swap at h
    repeat' split at h
    all_goals simp_all
  this := rfl
  super := rfl
example : resolve (renameStmts swap scopingTree) = .done (.ok (renameStmts swap scopingTree)) := by by_kernel

end Ws.Properties
