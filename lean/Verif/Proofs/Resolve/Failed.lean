import Verif.Proofs.Resolve.Class
import Verif.Proofs.Resolve.Closed
/-! `this` and `super` never become globals, also when resolving fails. -/
namespace Ws
open Ws.Spec

/-- The global scope has neither `this` nor `super`. -/
def GlobalClean (rs : Resolver) : Prop := ∀ g, rs.scopes.getLast? = some g → Clean g.names

/-- Some scope has the name. -/
def Has (x : Str) (rs : Resolver) : Prop := ∃ s ∈ rs.scopes, x ∈ s.names

/-- `this` and `super` are bound where the class type allows them. -/
structure Bound (rs : Resolver) : Prop where
  this : rs.classType ≠ .noClass → Has c!"this" rs
  super : rs.classType = .subclass → Has c!"super" rs

/-- The state after a run from `rs`; `Q` holds if it succeeded. -/
def SafeEnd {α : Type} (Q : Resolver → Prop) (rs : Resolver) : Res Resolver Cause α → Prop
  | .ok _ rs' => Kept rs rs' ∧ GlobalClean rs' ∧ Q rs'
  | .err _ rs' => Kept rs rs' ∧ GlobalClean rs'
  | _ => True

/-- From a state with `P`, runs keep the global scope clean and success leads to `Q`. -/
def Safe {α : Type} (P : Resolver → Prop) (x : R α) (Q : Resolver → Prop) : Prop :=
  ∀ rs, Wf rs → GlobalClean rs → P rs → SafeEnd Q rs (x rs)

/-- The property survives what runs do. -/
def Stable (P : Resolver → Prop) : Prop := ∀ rs rs', Kept rs rs' → P rs → P rs'

theorem Has.kept {x rs rs'} (h : Has x rs) (k : Kept rs rs') : Has x rs' := by
  obtain ⟨s, hs, hx⟩ := h
  obtain ⟨i, hi⟩ := List.getElem?_of_mem hs
  obtain ⟨s', hs', hp⟩ := k.grows i s hi
  exact ⟨s', List.mem_of_getElem? hs', hp.subset hx⟩

theorem bound_stable : Stable Bound := fun _ _ k h =>
  ⟨fun hc => (h.this (by rwa [← k.shape.classType])).kept k, fun hc => (h.super (by rwa [← k.shape.classType])).kept k⟩

section
variable {α β : Type} {P Q S : Resolver → Prop}

theorem safe_pure (a : α) : Safe P (pure a) P := fun rs hw hg hp => ⟨.refl hw, hg, hp⟩

theorem Safe.stable {x : R α} (h : Safe P x Q) (hP : Stable P) : Safe P x P := by
  intro rs hw hg hp
  have := h rs hw hg hp
  revert this
  cases x rs with
  | ok a t => exact fun h => ⟨h.1, h.2.1, hP _ _ h.1 hp⟩
  | _ => exact id

theorem Safe.pre {x : R α} (h : Safe Q x S) (hP : ∀ rs, P rs → Q rs) : Safe P x S :=
  fun rs hw hg hp => h rs hw hg (hP rs hp)

theorem Safe.post {x : R α} (h : Safe P x Q) (hP : ∀ rs, Q rs → S rs) : Safe P x S := by
  intro rs hw hg hp
  have := h rs hw hg hp
  revert this
  cases x rs with
  | ok a t => exact fun h => ⟨h.1, h.2.1, hP _ h.2.2⟩
  | _ => exact id

theorem safe_bind {x : R α} {f : α → R β} (h : Safe P x Q) (hf : ∀ a, Safe Q (f a) S) : Safe P (x >>= f) S := by
  intro rs hw hg hp
  have h1 := h rs hw hg hp
  show SafeEnd S rs (M.bind x f rs)
  unfold M.bind
  revert h1
  cases x rs with
  | ok a rs1 =>
    rintro ⟨k, hg1, hq⟩
    have h2 := hf a rs1 k.wf hg1 hq
    revert h2
    show _ → SafeEnd S rs (f a rs1)
    cases f a rs1 with
    | ok b rs2 => exact fun h => ⟨k.trans h.1, h.2⟩
    | err b rs2 => exact fun h => ⟨k.trans h.1, h.2⟩
    | _ => exact id
  | _ => exact id

theorem globalClean_enter {rs : Resolver} (hw : Wf rs) : GlobalClean rs.enter ↔ GlobalClean rs := by
  unfold GlobalClean Resolver.enter
  have : ([] :: rs.scopes).getLast? = rs.scopes.getLast? := by
    cases h : rs.scopes with
    | nil => exact absurd h hw.nonempty
    | cons s ss => rfl
  dsimp only
  rw [this]

theorem safe_scope {x : R α} {Q' : Resolver → Prop} (h : Safe Q x Q') (hP : ∀ rs, Wf rs → P rs → Q rs.enter)
    (hS : Stable P) : Safe P (inNewScope x) P := by
  refine Safe.stable (Q := fun _ => True) ?_ hS
  intro rs hw hg hp
  show SafeEnd _ rs (M.bind beginScope (fun _ => andFinally x Resolver.endScope) rs)
  unfold M.bind beginScope
  by_cases hl : rs.scopes.length ≥ varLocMaxDistance
  · rw [if_pos hl]; trivial
  · rw [if_neg hl]
    show SafeEnd _ rs (andFinally x Resolver.endScope rs.enter)
    have h0 := enter_steps hw (Nat.lt_of_not_le hl)
    have h1 := h rs.enter h0.wf ((globalClean_enter hw).mpr hg) (hP rs hw hp)
    have key : ∀ t, Kept rs.enter t → GlobalClean t → Kept rs t.endScope ∧ GlobalClean t.endScope := by
      intro t ht hgt
      have hpos := List.length_pos_iff.mpr hw.nonempty
      have l : (_ : Nat) = _ := ht.shape.length
      simp only [Resolver.enter, List.length_cons] at l
      have hw' := (leave_steps ht.wf (by omega)).wf
      refine ⟨⟨⟨ht.shape.functionType, ht.shape.classType, ?_, hw'.nonempty⟩, hw', ht.grows.tail⟩, ?_⟩
      · simp only [Resolver.endScope, List.length_tail]
        omega
      · intro g hgl
        refine hgt g ?_
        simp only [Resolver.endScope] at hgl
        cases hs : t.scopes with
        | nil => rw [hs] at hgl; simp at hgl
        | cons s ss =>
          rw [hs, List.tail_cons] at hgl
          cases ss with
          | nil => simp at hgl
          | cons s2 ss => exact hgl
    unfold andFinally
    revert h1
    cases x rs.enter with
    | ok a t =>
      intro h
      obtain ⟨a, b⟩ := key t h.1 h.2.1
      exact ⟨a, b, trivial⟩
    | err a t => exact fun h => key t h.1 h.2
    | _ => exact id

theorem safe_function {x : R α} (ft) (h : Safe Bound x Bound) : Safe Bound (withFunctionType ft x) Bound := by
  refine Safe.stable (Q := fun _ => True) ?_ bound_stable
  intro rs hw hg hp
  have h1 := h { rs with functionType := ft } (wf_types hw ..) hg ⟨hp.this, hp.super⟩
  have key : ∀ t, Kept { rs with functionType := ft } t → Kept rs { t with functionType := rs.functionType } :=
    fun t ht => ⟨⟨rfl, ht.shape.classType, ht.shape.length, ht.shape.nonempty⟩, wf_types ht.wf .., ht.grows⟩
  unfold withFunctionType andFinally
  revert h1
  cases x { rs with functionType := ft } with
  | ok a t => exact fun h => ⟨key t h.1, h.2.1, trivial⟩
  | err a t => exact fun h => ⟨key t h.1, h.2⟩
  | _ => exact id

theorem safe_class {x : R α} (ct) (h : Safe (·.classType = ct) x (·.classType = ct)) : Safe Bound (withClassType ct x) Bound := by
  refine Safe.stable (Q := fun _ => True) ?_ bound_stable
  intro rs hw hg hp
  have h1 := h { rs with classType := ct } (wf_types hw ..) hg rfl
  have key : ∀ t, Kept { rs with classType := ct } t → Kept rs { t with classType := rs.classType } :=
    fun t ht => ⟨⟨ht.shape.functionType, rfl, ht.shape.length, ht.shape.nonempty⟩, wf_types ht.wf .., ht.grows⟩
  unfold withClassType andFinally
  revert h1
  cases x { rs with classType := ct } with
  | ok a t => exact fun h => ⟨key t h.1, h.2.1, trivial⟩
  | err a t => exact fun h => ⟨key t h.1, h.2⟩
  | _ => exact id

theorem globalClean_touched {x s s' ss} {rs : Resolver} (hg : GlobalClean rs) (e : rs.scopes = s :: ss)
    (ht : Touched x s s') (hx : Plain x ∨ 2 ≤ rs.scopes.length) : GlobalClean { rs with scopes := s' :: ss } := by
  intro g hgl
  cases ss with
  | nil =>
    simp only [List.getLast?_singleton, Option.some.injEq] at hgl
    subst hgl
    rw [ht.names]
    refine clean_addName (hx.resolve_right (by simp [e])) (hg s (by simp [e]))
  | cons s2 ss =>
    refine hg g ?_
    rw [e]
    exact hgl

/-- Declaring a name, which must not be `this` or `super` in the global scope. -/
theorem safe_define (x loc) (hP : ∀ rs, P rs → Plain x ∨ 2 ≤ rs.scopes.length) (hS : Stable P) :
    Safe P (define x loc) (fun rs => P rs ∧ Has x rs) := by
  intro rs hw hg hp
  have hk := good_closed.define (n := 0) x loc rs hw
  rcases define_spec x loc rs hw.nonempty with ⟨_, h⟩ | ⟨s, s', ss, h1, h2, h3, h4, _⟩
  · rw [h]; exact ⟨.refl hw, hg⟩
  · rw [h2] at hk ⊢
    refine ⟨hk, globalClean_touched hg h1 h3 (hP rs hp), hS _ _ hk hp, s', by simp, ?_⟩
    rw [h3.names, addName]
    split
    · assumption
    · simp

theorem safe_declare (x loc) (hx : Plain x) (hS : Stable P) : Safe P (declare x loc) P := by
  intro rs hw hg hp
  have hk := good_closed.declare (n := 0) x loc rs hw
  rcases declare_spec x loc rs hw.nonempty with ⟨_, h⟩ | ⟨s, s', ss, v, h1, h2, h3, _⟩
  · rw [h]; exact ⟨.refl hw, hg⟩
  · rw [h2] at hk ⊢
    exact ⟨hk, globalClean_touched hg h1 h3 (.inl hx), hS _ _ hk hp⟩

/-- Looking up a name: `this` and `super` must be bound. -/
theorem safe_local (x loc) (hP : ∀ rs, P rs → Plain x ∨ Has x rs) (hS : Stable P) :
    Safe P (resolveLocalVariable x loc) P := by
  intro rs hw hg hp
  have hk := local_good (n := 0) x loc rs hw
  rcases local_spec x loc rs hw.nonempty with ⟨_, h⟩ | ⟨b, s, a, v, h1, h2, h3, h⟩ | ⟨b, g, h1, h2, h3, h⟩
  · rw [h]; exact ⟨.refl hw, hg⟩
  · rw [h]; exact ⟨.refl hw, hg, hp⟩
  · rw [h] at hk ⊢
    refine ⟨hk, ?_, hS _ _ hk hp⟩
    rcases hP rs hp with hx | ⟨s, hs, hx⟩
    · intro g' hg'
      simp only [List.getLast?_append, List.getLast?_singleton, Option.some_or, Option.some.injEq] at hg'
      subst hg'
      have hc := hg g (by simp [h1])
      have := clean_addName hx hc
      rw [addName, if_neg (scope_get_none.mp (h2 g (by simp [h1])))] at this
      rw [insertNew_names]
      exact this
    · exact absurd hx (scope_get_none.mp (h2 s hs))

theorem safe_variable (x loc) (hx : x ≠ c!"super") : Safe Bound (resolveVariable x loc) Bound := by
  intro rs hw hg hp
  rcases variable_spec x loc rs hw.nonempty with ⟨_, h⟩ | ⟨h, ht, _⟩
  · rw [h]; exact ⟨.refl hw, hg⟩
  · rw [h]
    refine (safe_local (P := fun rs => Bound rs ∧ (x = c!"this" → rs.classType ≠ .noClass)) x loc ?_ ?_).post
      (fun _ h => h.1) rs hw hg ⟨hp, ht⟩
    · rintro rs ⟨hb, hc⟩
      by_cases e : x = c!"this"
      · subst e; exact .inr (hb.this (hc rfl))
      · exact .inl ⟨e, hx⟩
    · rintro rs rs' k ⟨h1, h2⟩
      exact ⟨bound_stable _ _ k h1, fun e => by rw [k.shape.classType]; exact h2 e⟩

theorem safe_plain_variable (x loc) (hx : Plain x) (hS : Stable P) : Safe P (resolveVariable x loc) P := by
  intro rs hw hg hp
  rcases variable_spec x loc rs hw.nonempty with ⟨_, h⟩ | ⟨h, ht, _⟩
  · rw [h]; exact ⟨.refl hw, hg⟩
  · rw [h]
    exact safe_local x loc (fun _ _ => .inl hx) hS rs hw hg hp

theorem safe_super (loc) : Safe Bound (resolveSuper loc) Bound := by
  intro rs hw hg hp
  rcases super_spec loc rs with ⟨_, h⟩ | ⟨h, ht⟩
  · rw [h]; exact ⟨.refl hw, hg⟩
  · rw [h]
    refine (safe_local (P := fun rs => Bound rs ∧ rs.classType = .subclass) _ loc ?_ ?_).post
      (fun _ h => h.1) rs hw hg ⟨hp, ht⟩
    · rintro rs ⟨hb, hc⟩
      exact .inr (hb.super hc)
    · rintro rs rs' k ⟨h1, h2⟩
      exact ⟨bound_stable _ _ k h1, by rw [k.shape.classType]; exact h2⟩

theorem safe_return (e loc) : Safe P (checkReturn e loc) P := by
  intro rs hw hg hp
  rcases return_spec e loc rs with ⟨_, h⟩ | ⟨h, _⟩
  · rw [h]; exact ⟨.refl hw, hg⟩
  · rw [h]; exact ⟨.refl hw, hg, hp⟩

theorem safe_superclass (x e) : Safe P (checkSuperclass x e) P := by
  intro rs hw hg hp
  unfold checkSuperclass
  split
  · split
    · exact ⟨.refl hw, hg⟩
    · exact ⟨.refl hw, hg, hp⟩
  · exact ⟨.refl hw, hg, hp⟩
end

/-- Every part is ordinary. -/
def AllOrdinary (n : Node) : Prop := ∀ x, Within x n → Ordinary x

theorem AllOrdinary.part {n c : Node} (h : AllOrdinary n) (hc : c ∈ n.parts) : AllOrdinary c :=
  fun x hx => h x (.step hc hx)

theorem AllOrdinary.self {n : Node} (h : AllOrdinary n) : Ordinary n := h n .refl

/-- A class of type `ct`, in a scope that is not global. -/
def InClass (ct : ClassType) (rs : Resolver) : Prop := rs.classType = ct ∧ 2 ≤ rs.scopes.length

theorem inClass_stable {ct} : Stable (InClass ct) := fun _ _ k h =>
  ⟨by rw [k.shape.classType]; exact h.1, by rw [k.shape.length]; exact h.2⟩

theorem classType_stable {ct} : Stable (·.classType = ct) := fun _ _ k h => by
  show _ = _
  rw [k.shape.classType]; exact h

theorem inClass_enter {ct rs} (hw : Wf rs) (h : rs.classType = ct) : InClass ct rs.enter :=
  ⟨h, by have := List.length_pos_iff.mpr hw.nonempty; simp only [Resolver.enter, List.length_cons]; omega⟩

theorem bound_enter (rs : Resolver) (_ : Wf rs) (h : Bound rs) : Bound rs.enter where
  this hc := by
    obtain ⟨s, hs, hx⟩ := h.this hc
    exact ⟨s, by simp [Resolver.enter, hs], hx⟩
  super hc := by
    obtain ⟨s, hs, hx⟩ := h.super hc
    exact ⟨s, by simp [Resolver.enter, hs], hx⟩

theorem safe_params : ∀ ps : List Parameter, (∀ p ∈ ps, Plain p.name) → Safe Bound (defineParams ps) Bound
  | [], _ => safe_pure _
  | p :: ps, h => safe_bind ((safe_define _ _ (fun _ _ => .inl (h p (by simp))) bound_stable).post fun _ h => h.1)
      fun _ => safe_params ps fun q hq => h q (by simp [hq])

mutual
theorem safe_stmt : ∀ s, AllOrdinary (.stmt s) → Safe Bound (resolveStmt s) Bound
  | .block b, h => by
    simp only [resolveStmt]
    exact safe_bind (safe_scope (safe_stmts b fun s hs => h.part (by simpa [Node.parts, stmtParts] using hs))
      bound_enter bound_stable) fun _ => safe_pure _
  | .break loc, h => by
    simp only [resolveStmt]
    exact safe_pure _
  | .continue loc, h => by
    simp only [resolveStmt]
    exact safe_pure _
  | .class x none ms loc, h => by
    simp only [resolveStmt]
    have hx := h.self
    simp only [Option.isSome, Bool.false_eq_true, if_false]
    refine safe_class _ (safe_bind ((safe_define _ _ (fun _ _ => .inl ⟨hx.1, hx.2.1⟩) classType_stable).post fun _ h => h.1)
      fun _ => safe_bind (safe_superclass _ _) fun _ => safe_bind ?_ fun _ => safe_pure _)
    refine safe_scope (Q := InClass .plainClass) (safe_bind (safe_define _ _ (fun _ h => .inr h.2) inClass_stable) fun _ =>
      (safe_methods ms fun m hm => h.part (by
        simp only [Node.parts, stmtParts, List.mem_append, List.mem_map]; exact .inr ⟨m, hm, rfl⟩)).pre ?_)
      (fun rs hw h => inClass_enter hw h) classType_stable
    rintro rs ⟨⟨h1, h2⟩, h3⟩
    exact ⟨fun _ => h3, fun h => by rw [h1] at h; cases h⟩
  | .class x (some e) ms loc, h => by
    simp only [resolveStmt]
    have hx := h.self
    obtain ⟨y, c, l, rfl, hy⟩ := hx.2.2 _ rfl
    have hy' : Ordinary (.expr (.variable y c l)) := h _ (.step (by simp [Node.parts, stmtParts]) .refl)
    simp only [Option.isSome, if_true]
    refine safe_class _ (safe_bind ((safe_define _ _ (fun _ _ => .inl ⟨hx.1, hx.2.1⟩) classType_stable).post fun _ h => h.1)
      fun _ => safe_bind (safe_superclass _ _) fun _ => safe_bind (Q := (·.classType = .subclass)) ?_ fun _ =>
        safe_bind ?_ fun _ => safe_pure _)
    · simp only [resolveExpr]
      exact safe_bind (safe_plain_variable y l ⟨hy, hy'⟩ classType_stable) fun _ => safe_pure _
    · refine safe_scope (Q := InClass .subclass) (Q' := fun rs => InClass .subclass rs ∧ Has c!"super" rs)
        (safe_bind (safe_define _ _ (fun _ h => .inr h.2) inClass_stable) fun _ =>
        safe_scope (Q := fun rs => InClass .subclass rs ∧ Has c!"super" rs) (Q' := Bound)
          (safe_bind (safe_define _ _ (fun _ h => .inr h.1.2) ?_) fun _ =>
            (safe_methods ms fun m hm => h.part (by
              simp only [Node.parts, stmtParts, List.mem_append, List.mem_map]; exact .inr ⟨m, hm, rfl⟩)).pre ?_)
          ?_ ?_) (fun rs hw h => inClass_enter hw h) classType_stable
      · exact fun _ _ k h => ⟨inClass_stable _ _ k h.1, h.2.kept k⟩
      · rintro rs ⟨⟨_, h2⟩, h3⟩
        exact ⟨fun _ => h3, fun _ => h2⟩
      · rintro rs hw ⟨⟨h1, _⟩, s, hs, hx⟩
        exact ⟨inClass_enter hw h1, s, by simp [Resolver.enter, hs], hx⟩
      · exact fun _ _ k h => ⟨inClass_stable _ _ k h.1, h.2.kept k⟩
  | .expression e, h => by
    simp only [resolveStmt]
    exact safe_bind (safe_expr e (h.part (by simp [Node.parts, stmtParts]))) fun _ => safe_pure _
  | .print e, h => by
    simp only [resolveStmt]
    exact safe_bind (safe_expr e (h.part (by simp [Node.parts, stmtParts]))) fun _ => safe_pure _
  | .fun (.mk x d), h => by
    simp only [resolveStmt]
    have hx := h.self
    exact safe_bind ((safe_define _ _ (fun _ _ => .inl hx) bound_stable).post fun _ h => h.1) fun _ =>
      safe_bind (safe_fn _ d (h.part (by simp [Node.parts, stmtParts, NamedFun.funDef]))) fun _ => safe_pure _
  | .if c a none, h => by
    simp only [resolveStmt]
    exact safe_bind (safe_expr c (h.part (by simp [Node.parts, stmtParts]))) fun _ =>
      safe_bind (safe_stmt a (h.part (by simp [Node.parts, stmtParts]))) fun _ => safe_pure _
  | .if c a (some b), h => by
    simp only [resolveStmt]
    exact safe_bind (safe_expr c (h.part (by simp [Node.parts, stmtParts]))) fun _ =>
      safe_bind (safe_stmt a (h.part (by simp [Node.parts, stmtParts]))) fun _ =>
      safe_bind (safe_stmt b (h.part (by simp [Node.parts, stmtParts]))) fun _ => safe_pure _
  | .return e loc, h => by
    simp only [resolveStmt]
    exact safe_bind (safe_return _ _) fun _ =>
      safe_bind (safe_expr e (h.part (by simp [Node.parts, stmtParts]))) fun _ => safe_pure _
  | .var x c e loc, h => by
    simp only [resolveStmt]
    have hx := h.self
    exact safe_bind (safe_declare _ _ hx bound_stable) fun _ =>
      safe_bind (safe_expr e (h.part (by simp [Node.parts, stmtParts]))) fun _ =>
      safe_bind ((safe_define _ _ (fun _ _ => .inl hx) bound_stable).post fun _ h => h.1) fun _ => safe_pure _
  | .while c b, h => by
    simp only [resolveStmt]
    exact safe_bind (safe_expr c (h.part (by simp [Node.parts, stmtParts]))) fun _ =>
      safe_bind (safe_stmt b (h.part (by simp [Node.parts, stmtParts]))) fun _ => safe_pure _
  | .whileIncrement c b i, h => by
    simp only [resolveStmt]
    exact safe_bind (safe_expr c (h.part (by simp [Node.parts, stmtParts]))) fun _ =>
      safe_bind (safe_stmt b (h.part (by simp [Node.parts, stmtParts]))) fun _ =>
      safe_bind (safe_expr i (h.part (by simp [Node.parts, stmtParts]))) fun _ => safe_pure _

theorem safe_stmts : ∀ ss : List Stmt, (∀ s ∈ ss, AllOrdinary (.stmt s)) → Safe Bound (resolveStmts ss) Bound
  | [], _ => by
    simp only [resolveStmts]
    exact safe_pure _
  | s :: ss, h => by
    simp only [resolveStmts]
    exact safe_bind (safe_stmt s (h s (by simp))) fun _ =>
      safe_bind (safe_stmts ss fun t ht => h t (by simp [ht])) fun _ => safe_pure _

theorem safe_expr : ∀ e, AllOrdinary (.expr e) → Safe Bound (resolveExpr e) Bound
  | .assign x c r loc, h => by
    simp only [resolveExpr]
    have hx := h.self
    exact safe_bind (safe_expr r (h.part (by simp [Node.parts, exprParts]))) fun _ =>
      safe_bind (safe_local _ _ (fun _ _ => .inl hx) bound_stable) fun _ => safe_pure _
  | .call f args loc, h => by
    simp only [resolveExpr]
    exact safe_bind (safe_expr f (h.part (by simp [Node.parts, exprParts]))) fun _ =>
      safe_bind (safe_exprs args fun e he => h.part (by
        simp only [Node.parts, exprParts, List.mem_cons, List.mem_map]; exact .inr ⟨e, he, rfl⟩)) fun _ => safe_pure _
  | .binary a op b loc, h => by
    simp only [resolveExpr]
    exact safe_bind (safe_expr a (h.part (by simp [Node.parts, exprParts]))) fun _ =>
      safe_bind (safe_expr b (h.part (by simp [Node.parts, exprParts]))) fun _ => safe_pure _
  | .function d, h => by
    simp only [resolveExpr]
    exact safe_bind (safe_fn _ d (h.part (by simp [Node.parts, exprParts]))) fun _ => safe_pure _
  | .get o n loc, h => by
    simp only [resolveExpr]
    exact safe_bind (safe_expr o (h.part (by simp [Node.parts, exprParts]))) fun _ => safe_pure _
  | .getIndex a i loc, h => by
    simp only [resolveExpr]
    exact safe_bind (safe_expr a (h.part (by simp [Node.parts, exprParts]))) fun _ =>
      safe_bind (safe_expr i (h.part (by simp [Node.parts, exprParts]))) fun _ => safe_pure _
  | .grouping e, h => by
    simp only [resolveExpr]
    exact safe_bind (safe_expr e (h.part (by simp [Node.parts, exprParts]))) fun _ => safe_pure _
  | .literalArray es, h => by
    simp only [resolveExpr]
    exact safe_bind (safe_exprs es fun e he => h.part (by simpa [Node.parts, exprParts] using he)) fun _ => safe_pure _
  | .literalBool b, h => by
    simp only [resolveExpr]
    exact safe_pure _
  | .literalMap ms, h => by
    simp only [resolveExpr]
    exact safe_bind (safe_entries ms fun m hm => h.part (by
      simp only [Node.parts, exprParts, List.mem_map]; exact ⟨m, hm, rfl⟩)) fun _ => safe_pure _
  | .literalNil, h => by
    simp only [resolveExpr]
    exact safe_pure _
  | .literalNumber x, h => by
    simp only [resolveExpr]
    exact safe_pure _
  | .literalString x, h => by
    simp only [resolveExpr]
    exact safe_pure _
  | .logical a op b, h => by
    simp only [resolveExpr]
    exact safe_bind (safe_expr a (h.part (by simp [Node.parts, exprParts]))) fun _ =>
      safe_bind (safe_expr b (h.part (by simp [Node.parts, exprParts]))) fun _ => safe_pure _
  | .set o n b loc, h => by
    simp only [resolveExpr]
    exact safe_bind (safe_expr o (h.part (by simp [Node.parts, exprParts]))) fun _ =>
      safe_bind (safe_expr b (h.part (by simp [Node.parts, exprParts]))) fun _ => safe_pure _
  | .setIndex a b c loc, h => by
    simp only [resolveExpr]
    exact safe_bind (safe_expr a (h.part (by simp [Node.parts, exprParts]))) fun _ =>
      safe_bind (safe_expr b (h.part (by simp [Node.parts, exprParts]))) fun _ =>
      safe_bind (safe_expr c (h.part (by simp [Node.parts, exprParts]))) fun _ => safe_pure _
  | .super c n loc, h => by
    simp only [resolveExpr]
    exact safe_bind (safe_super _) fun _ => safe_pure _
  | .unary op e loc, h => by
    simp only [resolveExpr]
    exact safe_bind (safe_expr e (h.part (by simp [Node.parts, exprParts]))) fun _ => safe_pure _
  | .variable x c loc, h => by
    simp only [resolveExpr]
    exact safe_bind (safe_variable _ _ h.self) fun _ => safe_pure _

theorem safe_exprs : ∀ es : List Expr, (∀ e ∈ es, AllOrdinary (.expr e)) → Safe Bound (resolveExprs es) Bound
  | [], _ => by
    simp only [resolveExprs]
    exact safe_pure _
  | e :: es, h => by
    simp only [resolveExprs]
    exact safe_bind (safe_expr e (h e (by simp))) fun _ =>
      safe_bind (safe_exprs es fun t ht => h t (by simp [ht])) fun _ => safe_pure _

theorem safe_entries : ∀ ms : List MapEntry, (∀ m ∈ ms, AllOrdinary (.expr m.value)) → Safe Bound (resolveEntries ms) Bound
  | [], _ => by
    simp only [resolveEntries]
    exact safe_pure _
  | .mk k v :: ms, h => by
    simp only [resolveEntries]
    exact safe_bind (safe_expr v (h (.mk k v) (by simp))) fun _ =>
      safe_bind (safe_entries ms fun t ht => h t (by simp [ht])) fun _ => safe_pure _

theorem safe_methods : ∀ ms : List NamedFun, (∀ m ∈ ms, AllOrdinary (.fn m.funDef)) → Safe Bound (resolveMethods ms) Bound
  | [], _ => by
    simp only [resolveMethods]
    exact safe_pure _
  | .mk k d :: ms, h => by
    simp only [resolveMethods]
    exact safe_bind (safe_fn _ d (h (.mk k d) (by simp))) fun _ =>
      safe_bind (safe_methods ms fun t ht => h t (by simp [ht])) fun _ => safe_pure _

theorem safe_fn : ∀ ft d, AllOrdinary (.fn d) → Safe Bound (resolveFunction ft d) Bound
  | ft, .mk ps b k loc, h => by
    simp only [resolveFunction]
    refine safe_bind (safe_function _ (safe_scope (safe_bind (safe_params ps h.self) fun _ =>
      safe_stmts b fun s hs => h.part ?_) bound_enter bound_stable)) fun _ => safe_pure _
    simp only [Node.parts, List.mem_map]
    exact ⟨s, hs, rfl⟩
end

end Ws
