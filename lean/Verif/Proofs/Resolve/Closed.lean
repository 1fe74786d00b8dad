import Verif.Proofs.Resolve.Trace
import Verif.Spec.Depth
/-! Properties of every run of the resolver, successful or not. -/
namespace Ws
open Ws.Spec

/-- A property, for every bound on nested scopes, of all that the resolver is made of. -/
structure Closed (P : ∀ {α : Type}, Nat → R α → Prop) : Prop where
  mono {α : Type} {n m} {x : R α} : P n x → n ≤ m → P m x
  pure {α : Type} {n} (a : α) : P n (pure a : R α)
  bind {α β : Type} {n} {x : R α} {f : α → R β} : P n x → (∀ a, P n (f a)) → P n (x >>= f)
  define {n} (x loc) : P n (define x loc)
  declare {n} (x loc) : P n (declare x loc)
  «local» {n} (x loc) : P n (resolveLocalVariable x loc)
  «variable» {n} (x loc) : P n (resolveVariable x loc)
  super {n} (loc) : P n (resolveSuper loc)
  «return» {n} (e loc) : P n (checkReturn e loc)
  superclass {n} (x e) : P n (checkSuperclass x e)
  scope {α : Type} {n} {x : R α} : P n x → P (n + 1) (inNewScope x)
  function {α : Type} {n} (ft) {x : R α} : P n x → P n (withFunctionType ft x)
  «class» {α : Type} {n} (ct) {x : R α} : P n x → P n (withClassType ct x)

variable {P : ∀ {α : Type}, Nat → R α → Prop}

theorem Closed.le {α : Type} (C : Closed P) {n m} {x : R α} (h : P n x) (hm : n ≤ m := by omega) : P m x := C.mono h hm

theorem closed_params (C : Closed P) {n} : ∀ ps, P n (defineParams ps)
  | [] => C.pure _
  | _ :: ps => C.bind (C.define ..) fun _ => closed_params C ps

mutual
theorem closed_stmt (C : Closed P) : ∀ s, P (stmtDepth s) (resolveStmt s)
  | .block b => by
    simp only [stmtDepth, resolveStmt]
    exact C.bind (C.scope (closed_stmts C b)) fun _ => C.pure _
  | .break loc => by
    simp only [resolveStmt]
    exact C.pure _
  | .continue loc => by
    simp only [resolveStmt]
    exact C.pure _
  | .class x none ms loc => by
    simp only [stmtDepth, resolveStmt]
    refine C.class _ (C.bind (C.define ..) fun _ => C.bind (C.superclass ..) fun _ => C.bind ?_ fun _ => C.pure _)
    exact C.scope (C.bind (C.define ..) fun _ => closed_methods C ms)
  | .class x (some e) ms loc => by
    simp only [stmtDepth, resolveStmt]
    refine C.class _ (C.bind (C.define ..) fun _ => C.bind (C.superclass ..) fun _ =>
      C.bind (C.le (closed_expr C e)) fun _ => C.bind ?_ fun _ => C.pure _)
    refine C.le (C.scope (C.bind (C.define ..) fun _ => C.scope (C.bind (C.define ..) fun _ => closed_methods C ms)))
  | .expression e => by
    simp only [stmtDepth, resolveStmt]
    exact C.bind (closed_expr C e) fun _ => C.pure _
  | .print e => by
    simp only [stmtDepth, resolveStmt]
    exact C.bind (closed_expr C e) fun _ => C.pure _
  | .fun (.mk x d) => by
    simp only [stmtDepth, resolveStmt]
    exact C.bind (C.define ..) fun _ => C.bind (closed_fn C _ d) fun _ => C.pure _
  | .if c a none => by
    simp only [stmtDepth, resolveStmt]
    exact C.bind (C.le (closed_expr C c)) fun _ => C.bind (C.le (closed_stmt C a)) fun _ => C.pure _
  | .if c a (some b) => by
    simp only [stmtDepth, resolveStmt]
    exact C.bind (C.le (closed_expr C c)) fun _ => C.bind (C.le (closed_stmt C a)) fun _ =>
      C.bind (C.le (closed_stmt C b)) fun _ => C.pure _
  | .return e loc => by
    simp only [stmtDepth, resolveStmt]
    exact C.bind (C.return ..) fun _ => C.bind (closed_expr C e) fun _ => C.pure _
  | .var x c e loc => by
    simp only [stmtDepth, resolveStmt]
    exact C.bind (C.declare ..) fun _ => C.bind (closed_expr C e) fun _ => C.bind (C.define ..) fun _ => C.pure _
  | .while c b => by
    simp only [stmtDepth, resolveStmt]
    exact C.bind (C.le (closed_expr C c)) fun _ => C.bind (C.le (closed_stmt C b)) fun _ => C.pure _
  | .whileIncrement c b i => by
    simp only [stmtDepth, resolveStmt]
    exact C.bind (C.le (closed_expr C c)) fun _ => C.bind (C.le (closed_stmt C b)) fun _ =>
      C.bind (C.le (closed_expr C i)) fun _ => C.pure _

theorem closed_stmts (C : Closed P) : ∀ ss, P (stmtsDepth ss) (resolveStmts ss)
  | [] => by
    simp only [resolveStmts]
    exact C.pure _
  | s :: ss => by
    simp only [stmtsDepth, resolveStmts]
    exact C.bind (C.le (closed_stmt C s)) fun _ => C.bind (C.le (closed_stmts C ss)) fun _ => C.pure _

theorem closed_expr (C : Closed P) : ∀ e, P (exprDepth e) (resolveExpr e)
  | .assign x c r loc => by
    simp only [exprDepth, resolveExpr]
    exact C.bind (closed_expr C r) fun _ => C.bind (C.local ..) fun _ => C.pure _
  | .binary a op b loc => by
    simp only [exprDepth, resolveExpr]
    exact C.bind (C.le (closed_expr C a)) fun _ => C.bind (C.le (closed_expr C b)) fun _ => C.pure _
  | .call f args loc => by
    simp only [exprDepth, resolveExpr]
    exact C.bind (C.le (closed_expr C f)) fun _ => C.bind (C.le (closed_exprs C args)) fun _ => C.pure _
  | .function d => by
    simp only [exprDepth, resolveExpr]
    exact C.bind (closed_fn C _ d) fun _ => C.pure _
  | .get o n loc => by
    simp only [exprDepth, resolveExpr]
    exact C.bind (closed_expr C o) fun _ => C.pure _
  | .getIndex a b loc => by
    simp only [exprDepth, resolveExpr]
    exact C.bind (C.le (closed_expr C a)) fun _ => C.bind (C.le (closed_expr C b)) fun _ => C.pure _
  | .grouping e => by
    simp only [exprDepth, resolveExpr]
    exact C.bind (closed_expr C e) fun _ => C.pure _
  | .literalArray es => by
    simp only [exprDepth, resolveExpr]
    exact C.bind (closed_exprs C es) fun _ => C.pure _
  | .literalBool b => by
    simp only [resolveExpr]
    exact C.pure _
  | .literalMap ms => by
    simp only [exprDepth, resolveExpr]
    exact C.bind (closed_entries C ms) fun _ => C.pure _
  | .literalNil => by
    simp only [resolveExpr]
    exact C.pure _
  | .literalNumber x => by
    simp only [resolveExpr]
    exact C.pure _
  | .literalString x => by
    simp only [resolveExpr]
    exact C.pure _
  | .logical a op b => by
    simp only [exprDepth, resolveExpr]
    exact C.bind (C.le (closed_expr C a)) fun _ => C.bind (C.le (closed_expr C b)) fun _ => C.pure _
  | .set a n b loc => by
    simp only [exprDepth, resolveExpr]
    exact C.bind (C.le (closed_expr C a)) fun _ => C.bind (C.le (closed_expr C b)) fun _ => C.pure _
  | .setIndex a b c loc => by
    simp only [exprDepth, resolveExpr]
    exact C.bind (C.le (closed_expr C a)) fun _ => C.bind (C.le (closed_expr C b)) fun _ =>
      C.bind (C.le (closed_expr C c)) fun _ => C.pure _
  | .super c n loc => by
    simp only [resolveExpr]
    exact C.bind (C.super ..) fun _ => C.pure _
  | .unary op e loc => by
    simp only [exprDepth, resolveExpr]
    exact C.bind (closed_expr C e) fun _ => C.pure _
  | .variable x c loc => by
    simp only [resolveExpr]
    exact C.bind (C.variable ..) fun _ => C.pure _

theorem closed_exprs (C : Closed P) : ∀ es, P (exprsDepth es) (resolveExprs es)
  | [] => by
    simp only [resolveExprs]
    exact C.pure _
  | e :: es => by
    simp only [exprsDepth, resolveExprs]
    exact C.bind (C.le (closed_expr C e)) fun _ => C.bind (C.le (closed_exprs C es)) fun _ => C.pure _

theorem closed_entries (C : Closed P) : ∀ ms, P (entriesDepth ms) (resolveEntries ms)
  | [] => by
    simp only [resolveEntries]
    exact C.pure _
  | .mk k v :: ms => by
    simp only [entriesDepth, resolveEntries]
    exact C.bind (C.le (closed_expr C v)) fun _ => C.bind (C.le (closed_entries C ms)) fun _ => C.pure _

theorem closed_methods (C : Closed P) : ∀ ms, P (methodsDepth ms) (resolveMethods ms)
  | [] => by
    simp only [resolveMethods]
    exact C.pure _
  | .mk k d :: ms => by
    simp only [methodsDepth, resolveMethods]
    exact C.bind (C.le (closed_fn C _ d)) fun _ => C.bind (C.le (closed_methods C ms)) fun _ => C.pure _

theorem closed_fn (C : Closed P) : ∀ ft d, P (funDepth d) (resolveFunction ft d)
  | ft, .mk ps b k loc => by
    simp only [funDepth, resolveFunction]
    exact C.bind (C.function _ (C.scope (C.bind (closed_params C ps) fun _ => closed_stmts C b))) fun _ => C.pure _
end

/-! ### The state afterwards, and panics -/

/-- The state after a run, successful or not. -/
structure Kept (rs rs' : Resolver) : Prop where
  shape : SameShape rs rs'
  wf : Wf rs'
  grows : Grows rs.scopes rs'.scopes

theorem Kept.refl {rs} (h : Wf rs) : Kept rs rs := ⟨⟨rfl, rfl, rfl, h.nonempty⟩, h, .refl⟩

theorem Kept.trans {a b c} (h : Kept a b) (h' : Kept b c) : Kept a c :=
  ⟨h.shape.trans h'.shape, h'.wf, h.grows.trans h'.grows⟩

/-- The run kept the state, or panicked because `n` more scopes do not fit. -/
def Ends {α : Type} (n : Nat) (rs : Resolver) : Res Resolver Cause α → Prop
  | .ok _ rs' => Kept rs rs'
  | .err _ rs' => Kept rs rs'
  | .panic m => m = "Too many nested lexical scopes" ∧ varLocMaxDistance < rs.scopes.length + n
  | .diverge => False

/-- Every run keeps the state, and can panic only when `n` more scopes do not fit. -/
def ResolvesWell {α : Type} (n : Nat) (x : R α) : Prop := ∀ rs, Wf rs → Ends n rs (x rs)

theorem define_grown {x loc} {rs rs' : Resolver} (h : define x loc rs = .ok () rs') (hw : Wf rs) : Kept rs rs' :=
  ⟨define_shape h hw.nonempty, (define_steps h hw).wf, define_grows h hw.nonempty⟩

theorem local_good {n} (x loc) : ResolvesWell n (resolveLocalVariable x loc) := by
  intro rs hw
  have h := local_spec x loc rs hw.nonempty
  cases hr : resolveLocalVariable x loc rs with
  | ok c rs' => exact ⟨local_shape hr hw.nonempty, (local_steps hr hw).wf, local_grows hr hw.nonempty⟩
  | err e rs' =>
    rw [hr] at h
    rcases h with ⟨_, h⟩ | ⟨b, s, a, v, h1, h2, h3, h⟩ | ⟨b, g, h1, h2, h3, h⟩
    · cases h; exact .refl hw
    · cases h
    · cases h
  | panic m =>
    rw [hr] at h
    rcases h with ⟨_, h⟩ | ⟨b, s, a, v, h1, h2, h3, h⟩ | ⟨b, g, h1, h2, h3, h⟩ <;> cases h
  | diverge =>
    rw [hr] at h
    rcases h with ⟨_, h⟩ | ⟨b, s, a, v, h1, h2, h3, h⟩ | ⟨b, g, h1, h2, h3, h⟩ <;> cases h

theorem good_closed : Closed (fun {α} n (x : R α) => ResolvesWell n x) where
  mono {α n m x} h hm rs hw := by
    have := h rs hw
    revert this
    cases x rs with
    | panic _ => exact fun h => ⟨h.1, by have := h.2; omega⟩
    | _ => exact id
  pure a rs hw := Kept.refl hw
  bind {α β n x f} hx hf rs hw := by
    have h1 := hx rs hw
    show Ends n rs (M.bind x f rs)
    unfold M.bind
    revert h1
    cases x rs with
    | ok a rs1 =>
      intro h1
      have h2 := hf a rs1 h1.wf
      revert h2
      show _ → Ends n rs (f a rs1)
      cases f a rs1 with
      | ok b rs2 => exact fun h => h1.trans h
      | err b rs2 => exact fun h => h1.trans h
      | panic m =>
        rintro ⟨a, b⟩
        rw [h1.shape.length] at b
        exact ⟨a, b⟩
      | diverge => exact id
    | _ => exact id
  define {n} x loc rs hw := by
    rcases define_spec x loc rs hw.nonempty with ⟨_, h⟩ | ⟨s, s', ss, h1, h2, h3⟩
    · rw [h]; exact .refl hw
    · have := define_grown h2 hw
      rw [h2]
      exact this
  declare {n} x loc rs hw := by
    rcases declare_spec x loc rs hw.nonempty with ⟨_, h⟩ | ⟨s, s', ss, v, h1, h2, h3⟩
    · rw [h]; exact .refl hw
    · have : Kept rs _ := ⟨declare_shape h2 hw.nonempty, (declare_steps h2 hw).wf, declare_grows h2 hw.nonempty⟩
      rw [h2]
      exact this
  «local» := local_good
  «variable» {n} x loc rs hw := by
    rcases variable_spec x loc rs hw.nonempty with ⟨_, h⟩ | ⟨h, _⟩
    · rw [h]; exact .refl hw
    · rw [h]; exact local_good x loc rs hw
  super {n} loc rs hw := by
    rcases super_spec loc rs with ⟨_, h⟩ | ⟨h, _⟩
    · rw [h]; exact .refl hw
    · rw [h]; exact local_good _ loc rs hw
  «return» {n} e loc rs hw := by
    rcases return_spec e loc rs with ⟨_, h⟩ | ⟨h, _⟩
    · rw [h]; exact .refl hw
    · rw [h]; exact .refl hw
  superclass {n} x e rs hw := by
    unfold checkSuperclass
    split
    · split
      · exact Kept.refl hw
      · exact Kept.refl hw
    · exact Kept.refl hw
  scope {α n x} hx rs hw := by
    show Ends (n + 1) rs (M.bind beginScope (fun _ => andFinally x Resolver.endScope) rs)
    unfold M.bind beginScope
    by_cases hl : rs.scopes.length ≥ varLocMaxDistance
    · rw [if_pos hl]
      exact ⟨rfl, by omega⟩
    · rw [if_neg hl]
      show Ends (n + 1) rs (andFinally x Resolver.endScope rs.enter)
      have h0 := enter_steps hw (Nat.lt_of_not_le hl)
      have h1 := hx rs.enter h0.wf
      have key : ∀ t, Kept rs.enter t → Kept rs t.endScope := by
        intro t ht
        have hpos := List.length_pos_iff.mpr hw.nonempty
        have l : (_ : Nat) = _ := ht.shape.length
        simp only [Resolver.enter, List.length_cons] at l
        have hw' := (leave_steps ht.wf (by omega)).wf
        refine ⟨⟨ht.shape.functionType, ht.shape.classType, ?_, hw'.nonempty⟩, hw', ht.grows.tail⟩
        simp only [Resolver.endScope, List.length_tail]
        omega
      unfold andFinally
      revert h1
      cases x rs.enter with
      | ok a t => exact key t
      | err a t => exact key t
      | panic m =>
        intro h1
        refine ⟨h1.1, ?_⟩
        have := h1.2
        simp only [Resolver.enter, List.length_cons] at this
        omega
      | diverge => exact id
  function {α n} ft {x} hx rs hw := by
    have h1 := hx { rs with functionType := ft } (wf_types hw ..)
    have key : ∀ t, Kept { rs with functionType := ft } t → Kept rs { t with functionType := rs.functionType } :=
      fun t ht => ⟨⟨rfl, ht.shape.classType, ht.shape.length, ht.shape.nonempty⟩, wf_types ht.wf .., ht.grows⟩
    unfold withFunctionType andFinally
    revert h1
    cases x { rs with functionType := ft } with
    | ok a t => exact key t
    | err a t => exact key t
    | _ => exact id
  «class» {α n} ct {x} hx rs hw := by
    have h1 := hx { rs with classType := ct } (wf_types hw ..)
    have key : ∀ t, Kept { rs with classType := ct } t → Kept rs { t with classType := rs.classType } :=
      fun t ht => ⟨⟨ht.shape.functionType, rfl, ht.shape.length, ht.shape.nonempty⟩, wf_types ht.wf .., ht.grows⟩
    unfold withClassType andFinally
    revert h1
    cases x { rs with classType := ct } with
    | ok a t => exact key t
    | err a t => exact key t
    | _ => exact id

/-! ### Too many scopes -/

def nodeDepth : Node → Nat
  | .expr e => exprDepth e
  | .stmt s => stmtDepth s
  | .fn d => funDepth d

def nodesDepth : List Node → Nat
  | [] => 0
  | n :: ns => max (nodeDepth n) (nodesDepth ns)

def itemDepth : Item → Nat
  | .nodes ns => nodesDepth ns
  | .node n => nodeDepth n
  | .fn _ d => funDepth d
  | .methods ms => methodsDepth ms

theorem exprsDepth_eq (es : List Expr) : exprsDepth es = nodesDepth (es.map .expr) := by
  induction es with
  | nil => simp [exprsDepth, nodesDepth]
  | cons e es ih => simp [exprsDepth, nodesDepth, nodeDepth, ih]

theorem stmtsDepth_eq (es : List Stmt) : stmtsDepth es = nodesDepth (es.map .stmt) := by
  induction es with
  | nil => simp [stmtsDepth, nodesDepth]
  | cons e es ih => simp [stmtsDepth, nodesDepth, nodeDepth, ih]

theorem entriesDepth_eq (es : List MapEntry) : entriesDepth es = nodesDepth (es.map fun m => .expr m.value) := by
  induction es with
  | nil => simp [entriesDepth, nodesDepth]
  | cons e es ih =>
    cases e
    simp [entriesDepth, nodesDepth, nodeDepth, ih, MapEntry.value]

theorem alike_depth {n n' : Node} (h : Alike n n') : nodeDepth n = nodesDepth n.parts := by
  cases h with
  | @«if» _ _ b _ _ _ _ =>
    cases b <;> simp [nodeDepth, nodesDepth, Node.parts, stmtParts, stmtDepth]
  | _ => simp [nodeDepth, nodesDepth, Node.parts, exprParts, stmtParts, exprDepth, stmtDepth, exprsDepth_eq,
      entriesDepth_eq]

/-- What is resolved successfully has no more scopes than fit. -/
theorem resolved_depth {a b rs rs'} (h : Resolved a b rs rs') :
    Wf rs → rs.scopes.length + itemDepth a ≤ varLocMaxDistance := by
  induction h with
  | nil => exact fun hw => hw.depth
  | methods_nil =>
    intro hw
    simp only [itemDepth, methodsDepth]
    exact hw.depth
  | cons h _ i i' =>
    intro hw
    have h1 := i hw
    have h2 := i' (resolved_steps h hw).wf
    rw [(resolved_shape h hw.nonempty).length] at h2
    simp only [itemDepth, nodesDepth] at h1 h2 ⊢
    omega
  | methods_cons h _ i i' =>
    intro hw
    have h1 := i hw
    have h2 := i' (resolved_steps h hw).wf
    rw [(resolved_shape h hw.nonempty).length] at h2
    simp only [itemDepth, methodsDepth] at h1 h2 ⊢
    omega
  | plain h _ i =>
    intro hw
    rw [show itemDepth (.node _) = _ from alike_depth h]
    exact i hw
  | function _ i =>
    intro hw
    simp only [itemDepth, nodeDepth, exprDepth]
    exact i hw
  | assign _ h i =>
    intro hw
    simp only [itemDepth, nodeDepth, exprDepth]
    exact i hw
  | «variable» h =>
    intro hw
    simp only [itemDepth, nodeDepth, exprDepth]
    exact hw.depth
  | super h =>
    intro hw
    simp only [itemDepth, nodeDepth, exprDepth]
    exact hw.depth
  | block hl h i =>
    intro hw
    have h1 := i (enter_steps hw hl).wf
    simp only [itemDepth, nodeDepth, stmtDepth, stmtsDepth_eq, Resolver.enter, List.length_cons] at h1 ⊢
    omega
  | «return» h _ i =>
    intro hw
    cases (return_ok h).1
    simp only [itemDepth, nodeDepth, stmtDepth]
    exact i hw
  | var h h' h'' i =>
    intro hw
    have := i (declare_steps h hw).wf
    rw [(declare_shape h hw.nonempty).length] at this
    simp only [itemDepth, nodeDepth, stmtDepth] at this ⊢
    exact this
  | «fun» h _ i =>
    intro hw
    have := i (define_steps h hw).wf
    rw [(define_shape h hw.nonempty).length] at this
    simp only [itemDepth, nodeDepth, stmtDepth] at this ⊢
    exact this
  | @«class» x ms ms' loc rs rs1 rs2 rs3 h hl h' hm i =>
    intro hw
    have h1 := define_steps h (wf_types hw ..)
    have h2 := enter_define_steps h' h1.wf hl
    have h3 := i h2.wf
    have l1 : (_ : Nat) = _ := (define_shape h hw.nonempty).length
    rw [(define_shape h' (enter_nonempty _)).length] at h3
    simp only [Resolver.enter, List.length_cons, itemDepth, nodeDepth, stmtDepth] at l1 h3 ⊢
    omega
  | @subclass x e e' ms ms' loc rs rs1 rs2 rs3 rs4 rs5 h _ he hl h' hl' h'' hm i i' =>
    intro hw
    have h1 := define_steps h (wf_types hw ..)
    have d1 := i h1.wf
    have h2 := resolved_steps he h1.wf
    have h3 := enter_define_steps h' h2.wf hl
    have h4 := enter_define_steps h'' h3.wf hl'
    have d2 := i' h4.wf
    have l1 : (_ : Nat) = _ := (define_shape h hw.nonempty).length
    have l2 : (_ : Nat) = _ := (resolved_shape he h1.wf.nonempty).length
    have l3 : (_ : Nat) = _ := (define_shape h' (enter_nonempty _)).length
    have l4 : (_ : Nat) = _ := (define_shape h'' (enter_nonempty _)).length
    simp only [Resolver.enter, List.length_cons, itemDepth, nodeDepth, stmtDepth] at l1 l2 l3 l4 d1 d2 ⊢
    omega
  | @fn ft ps b b' k loc rs rs1 rs2 hl h hb i =>
    intro hw
    have h1 := enter_steps hw hl
    have h2 := params_steps h (wf_types h1.wf ..)
    have d := i h2.wf
    have l : (_ : Nat) = _ := (params_shape h (by simp [Resolver.enter])).length
    simp only [Resolver.enter, List.length_cons, itemDepth, funDepth, stmtsDepth_eq] at l d ⊢
    omega

end Ws
