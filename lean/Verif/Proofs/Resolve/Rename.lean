import Verif.Proofs.Resolve.State
import Verif.Spec.Rename
/-! Resolving a renamed program. -/
namespace Ws
open Ws.Spec

/-- The scope with its names renamed. -/
def renScope (σ : Str → Str) (s : Scope) : Scope := s.map fun p => (σ p.1, p.2)

/-- The resolver with the names in its scopes renamed. -/
def Resolver.rename (σ : Str → Str) (rs : Resolver) : Resolver := { rs with scopes := rs.scopes.map (renScope σ) }

/-- The second result is that of the renamed program. -/
inductive RenRes (σ : Str → Str) {α β : Type} (f : α → β) : Res Resolver Cause α → Res Resolver Cause β → Prop
  | ok (a rs) : RenRes σ f (.ok a rs) (.ok (f a) (rs.rename σ))
  | err {c c'} (rs) : RenamedCause σ c c' → RenRes σ f (.err c rs) (.err c' (rs.rename σ))
  | panic (m) : RenRes σ f (.panic m) (.panic m)
  | diverge : RenRes σ f .diverge .diverge

/-- The second program is the renamed first one. -/
def Ren (σ : Str → Str) {α β : Type} (f : α → β) (x : R α) (x' : R β) : Prop :=
  ∀ rs, RenRes σ f (x rs) (x' (rs.rename σ))

variable {σ : Str → Str}

theorem ren_pure {α β : Type} {f : α → β} {a : α} {b : β} (h : f a = b) : Ren σ f (pure a) (pure b) := by
  subst h
  exact fun rs => .ok a rs

theorem ren_bind {α β γ δ : Type} {f : α → β} {g : γ → δ} {x : R α} {x' : R β} {k : α → R γ} {k' : β → R δ}
    (h : Ren σ f x x') (hk : ∀ a, Ren σ g (k a) (k' (f a))) : Ren σ g (x >>= k) (x' >>= k') := by
  intro rs
  have h1 := h rs
  show RenRes σ g (M.bind x k rs) (M.bind x' k' (rs.rename σ))
  unfold M.bind
  revert h1
  generalize x rs = r
  generalize x' (rs.rename σ) = r'
  intro h1
  cases h1 with
  | ok a rs1 => exact hk a rs1
  | err rs1 h => exact .err rs1 h
  | panic m => exact .panic m
  | diverge => exact .diverge

theorem ren_finally {α β : Type} {f : α → β} {x : R α} {x' : R β} {e e' : Resolver → Resolver} {rs : Resolver} {rs'}
    (h : RenRes σ f (x rs) (x' rs')) (he : ∀ t, (e t).rename σ = e' (t.rename σ)) :
    RenRes σ f (andFinally x e rs) (andFinally x' e' rs') := by
  unfold andFinally
  revert h
  generalize x rs = r
  generalize x' rs' = r'
  intro h1
  cases h1 with
  | ok a rs1 => dsimp only; rw [← he]; exact .ok a _
  | err rs1 h => dsimp only; rw [← he]; exact .err _ h
  | panic m => exact .panic m
  | diverge => exact .diverge

theorem ren_scope {α β : Type} {f : α → β} {x : R α} {x' : R β} (h : Ren σ f x x') :
    Ren σ f (inNewScope x) (inNewScope x') := by
  refine ren_bind (f := id) ?_ ?_
  · intro rs
    unfold beginScope
    simp only [Resolver.rename, List.length_map]
    split
    · exact .panic _
    · exact .ok () { rs with scopes := [] :: rs.scopes }
  · intro _ rs
    refine ren_finally (h rs) ?_
    intro t
    simp [Resolver.rename, Resolver.endScope, List.map_tail]

theorem ren_function {α β : Type} {f : α → β} {x : R α} {x' : R β} (ft) (h : Ren σ f x x') :
    Ren σ f (withFunctionType ft x) (withFunctionType ft x') :=
  fun rs => ren_finally (h { rs with functionType := ft }) (fun _ => rfl)

theorem ren_class {α β : Type} {f : α → β} {x : R α} {x' : R β} (ct) (h : Ren σ f x x') :
    Ren σ f (withClassType ct x) (withClassType ct x') :=
  fun rs => ren_finally (h { rs with classType := ct }) (fun _ => rfl)

/-- An error that quotes the name. -/
theorem ren_throw {α β : Type} {f : α → β} (loc x msg) :
    Ren σ f (M.throw (.newWithLocation loc x msg) : R α) (M.throw (.newWithLocation loc (σ x) msg) : R β) :=
  fun rs => .err rs ⟨rfl, rfl, .inr rfl⟩

/-- An error that quotes a keyword. -/
theorem ren_throw_same {α β : Type} {f : α → β} (c) : Ren σ f (M.throw c : R α) (M.throw c : R β) :=
  fun rs => .err rs ⟨rfl, rfl, .inl rfl⟩

variable (hσ : Renaming σ)
include hσ

theorem ren_get (s : Scope) (x : Str) : (renScope σ s).get (σ x) = s.get x := by
  unfold Scope.get renScope
  induction s with
  | nil => rfl
  | cons p s ih =>
    obtain ⟨k, v⟩ := p
    simp only [List.map_cons, List.lookup_cons, ih]
    by_cases h : x = k
    · subst h; simp
    · rw [show (σ x == σ k) = false from by simpa using fun e => h (hσ.inj _ _ e), show (x == k) = false from by simpa using h]

theorem ren_setState (s : Scope) (x : Str) (st) : (renScope σ s).setState (σ x) st = renScope σ (s.setState x st) := by
  unfold renScope
  induction s with
  | nil => simp [Scope.setState]
  | cons p s ih =>
    obtain ⟨k, v⟩ := p
    simp only [List.map_cons, Scope.setState, ih]
    by_cases h : x = k
    · subst h; simp
    · rw [show (σ x == σ k) = false from by simpa using fun e => h (hσ.inj _ _ e), show (x == k) = false from by simpa using h]
      simp

omit hσ in
theorem ren_insertNew (s : Scope) (x : Str) (v) : (renScope σ s).insertNew (σ x) v = renScope σ (s.insertNew x v) := by
  simp [Scope.insertNew, renScope]

omit hσ in
theorem ren_length (s : Scope) : (renScope σ s).length = s.length := by simp [renScope]

theorem ren_define (x loc) : Ren σ id (define x loc) (define (σ x) loc) := by
  rintro ⟨scopes, ft, ct⟩
  cases scopes with
  | nil => exact .panic _
  | cons s ss =>
    unfold define ensureScopeIndexLimit
    simp only [bind, M.bind, M.get, Resolver.rename, List.map_cons, ren_length]
    by_cases hl : s.length > varLocMaxDistance
    · simp only [hl, if_true, M.throw]
      exact .err (c := .newWithLocation loc x _) ⟨s :: ss, ft, ct⟩ ⟨rfl, rfl, .inr rfl⟩
    · simp only [hl, if_false, pure, M.pure, ren_get hσ, Resolver.isInGlobalScope, List.length_cons, List.length_map]
      cases hg : s.get x with
      | none =>
        dsimp only
        rw [ren_insertNew]
        exact .ok () ⟨s.insertNew x _ :: ss, ft, ct⟩
      | some v =>
        obtain ⟨slot, st⟩ := v
        cases st with
        | undefinedVar =>
          dsimp only
          rw [ren_setState hσ]
          exact .ok () ⟨s.setState x _ :: ss, ft, ct⟩
        | declaredVar =>
          dsimp only
          rw [ren_setState hσ]
          exact .ok () ⟨s.setState x _ :: ss, ft, ct⟩
        | definedVar =>
          dsimp only
          cases ss with
          | nil => exact .ok () ⟨[s], ft, ct⟩
          | cons s2 ss => exact ren_throw loc x _ ⟨s :: s2 :: ss, ft, ct⟩

theorem ren_declare (x loc) : Ren σ id (declare x loc) (declare (σ x) loc) := by
  rintro ⟨scopes, ft, ct⟩
  cases scopes with
  | nil => exact .panic _
  | cons s ss =>
    unfold declare ensureScopeIndexLimit
    simp only [bind, M.bind, M.get, Resolver.rename, List.map_cons, ren_length]
    by_cases hl : s.length > varLocMaxDistance
    · simp only [hl, if_true, M.throw]
      exact .err (c := .newWithLocation loc x _) ⟨s :: ss, ft, ct⟩ ⟨rfl, rfl, .inr rfl⟩
    · simp only [hl, if_false, pure, M.pure, ren_get hσ, Resolver.isInGlobalScope, List.length_cons, List.length_map]
      cases hg : s.get x with
      | none =>
        dsimp only
        rw [ren_insertNew]
        exact .ok _ ⟨s.insertNew x _ :: ss, ft, ct⟩
      | some v =>
        obtain ⟨slot, st⟩ := v
        cases st with
        | undefinedVar =>
          dsimp only
          rw [ren_setState hσ]
          exact .ok _ ⟨s.setState x _ :: ss, ft, ct⟩
        | declaredVar =>
          dsimp only
          cases ss with
          | nil => exact .ok _ ⟨[s], ft, ct⟩
          | cons s2 ss => exact ren_throw loc x _ ⟨s :: s2 :: ss, ft, ct⟩
        | definedVar =>
          dsimp only
          cases ss with
          | nil => exact .ok _ ⟨[s], ft, ct⟩
          | cons s2 ss => exact ren_throw loc x _ ⟨s :: s2 :: ss, ft, ct⟩

theorem ren_findVar (x : Str) (scopes : List Scope) (n : Nat) :
    findVar (σ x) (scopes.map (renScope σ)) n = findVar x scopes n := by
  induction scopes generalizing n with
  | nil => rfl
  | cons s ss ih =>
    simp only [List.map_cons, findVar, ren_get hσ, ih]

omit hσ in
theorem ren_setGlobal (scopes : List Scope) (g : Scope) :
    setGlobal (scopes.map (renScope σ)) (renScope σ g) = (setGlobal scopes g).map (renScope σ) := by
  induction scopes with
  | nil => rfl
  | cons s ss ih =>
    cases ss with
    | nil => rfl
    | cons s2 ss =>
      simp only [List.map_cons] at ih ⊢
      rw [setGlobal, ih, show setGlobal (s :: s2 :: ss) g = s :: setGlobal (s2 :: ss) g from by rw [setGlobal]; simp]
      · rfl
      · simp

theorem ren_reserve (x loc) : Ren σ id (forwardReserveGlobalVar x loc) (forwardReserveGlobalVar (σ x) loc) := by
  intro rs
  unfold forwardReserveGlobalVar ensureScopeIndexLimit
  simp only [bind, M.bind, M.get, Resolver.rename, List.getLast?_map]
  cases h : rs.scopes.getLast? with
  | none => exact .panic _
  | some s =>
    simp only [Option.map_some, ren_length]
    by_cases hl : s.length > varLocMaxDistance
    · simp only [hl, if_true, M.throw]
      exact .err (c := .newWithLocation loc x _) rs ⟨rfl, rfl, .inr rfl⟩
    · simp only [hl, if_false, pure, M.pure, ren_get hσ]
      cases hg : s.get x with
      | some v => exact .panic _
      | none =>
        simp only [M.modify, M.bind, M.pure, ren_insertNew, ren_setGlobal]
        exact .ok s.length { rs with scopes := setGlobal rs.scopes (s.insertNew x ⟨s.length, .undefinedVar⟩) }

theorem ren_local (x loc) : Ren σ id (resolveLocalVariable x loc) (resolveLocalVariable (σ x) loc) := by
  intro rs
  unfold resolveLocalVariable
  show RenRes σ id (M.bind M.get _ rs) (M.bind M.get _ (rs.rename σ))
  simp only [M.bind, M.get]
  simp only [show (rs.rename σ).scopes = rs.scopes.map (renScope σ) from rfl, ren_findVar hσ, List.length_map]
  cases findVar x rs.scopes 0 with
  | some p => exact .ok _ rs
  | none =>
    refine ren_bind (ren_reserve hσ x loc) ?_ rs
    intro n
    split
    · exact ren_pure rfl
    · exact fun _ => .panic _

theorem ren_this {x : Str} : σ x = c!"this" ↔ x = c!"this" :=
  ⟨fun h => hσ.inj _ _ (h.trans hσ.this.symm), fun h => by rw [h, hσ.this]⟩

theorem ren_variable (x loc) : Ren σ id (resolveVariable x loc) (resolveVariable (σ x) loc) := by
  intro rs
  unfold resolveVariable
  show RenRes σ id (M.bind M.get _ rs) (M.bind M.get _ (rs.rename σ))
  have ect : (rs.rename σ).classType = rs.classType := rfl
  simp only [M.bind, M.get, ren_this hσ, ect]
  by_cases hc : rs.classType = .noClass ∧ x = c!"this"
  · rw [if_pos hc, if_pos hc]
    exact ren_throw_same _ rs
  · rw [if_neg hc, if_neg hc]
    cases hs : rs.scopes with
    | nil =>
      simp only [Resolver.rename, hs]
      exact .panic _
    | cons s ss =>
      have : (rs.rename σ).scopes = renScope σ s :: ss.map (renScope σ) := by simp [Resolver.rename, hs]
      rw [this]
      simp only [ren_get hσ]
      split
      · exact ren_throw _ _ _ rs
      · exact ren_local hσ x loc rs

theorem ren_super (loc) : Ren σ id (resolveSuper loc) (resolveSuper loc) := by
  intro rs
  unfold resolveSuper
  show RenRes σ id (M.bind M.get _ rs) (M.bind M.get _ (rs.rename σ))
  simp only [M.bind, M.get]
  have : (rs.rename σ).classType = rs.classType := rfl
  rw [this]
  cases rs.classType with
  | noClass => exact ren_throw_same _ rs
  | plainClass => exact ren_throw_same _ rs
  | subclass =>
    have := ren_local hσ c!"super" loc rs
    rw [hσ.super] at this
    exact this

omit hσ in
theorem ren_return (e loc) : Ren σ id (checkReturn e loc) (checkReturn (renameExpr σ e) loc) := by
  intro rs
  unfold checkReturn
  show RenRes σ id (M.bind M.get _ rs) (M.bind M.get _ (rs.rename σ))
  simp only [M.bind, M.get]
  have : (rs.rename σ).functionType = rs.functionType := rfl
  rw [this]
  cases rs.functionType with
  | noFunction => exact ren_throw_same _ rs
  | plain => exact .ok _ rs
  | method => exact .ok _ rs
  | initializer =>
    cases e <;> simp only [renameExpr] <;> first | exact ren_throw_same _ rs | exact .ok _ rs

theorem ren_superclass (x e) : Ren σ id (checkSuperclass x (some e)) (checkSuperclass (σ x) (some (renameExpr σ e))) := by
  intro rs
  unfold checkSuperclass
  cases e with
  | «variable» y c loc =>
    simp only [renameExpr]
    by_cases h : y = x
    · subst h
      rw [if_pos rfl, if_pos rfl]
      exact ren_throw _ _ _ rs
    · rw [if_neg h, if_neg (fun e => h (hσ.inj _ _ e))]
      exact .ok _ rs
  | _ => simp only [renameExpr]; exact .ok _ rs

theorem ren_params : ∀ ps : List Parameter,
    Ren σ id (defineParams ps) (defineParams (ps.map fun p => { p with name := σ p.name }))
  | [] => ren_pure rfl
  | p :: ps => ren_bind (ren_define hσ p.name p.loc) fun _ => ren_params ps

omit hσ in
theorem renameFun_loc (d : FunDef) : (renameFun σ d).loc = d.loc := by
  cases d; simp [renameFun, FunDef.loc]

mutual
theorem ren_stmt : ∀ s, Ren σ (renameStmt σ) (resolveStmt s) (resolveStmt (renameStmt σ s))
  | .block b => by
    simp only [resolveStmt, renameStmt]
    exact ren_bind (ren_scope (ren_stmts b)) fun _ => ren_pure (by simp only [renameStmt])
  | .break loc => by
    simp only [resolveStmt, renameStmt]
    exact ren_pure (by simp only [renameStmt])
  | .continue loc => by
    simp only [resolveStmt, renameStmt]
    exact ren_pure (by simp only [renameStmt])
  | .class x none ms loc => by
    simp only [resolveStmt, renameStmt]
    refine ren_class _ (ren_bind (ren_define hσ x loc) fun _ => ren_bind (f := id) (fun rs => .ok _ rs) fun _ =>
      ren_bind (f := renameMethods σ) ?_ fun _ => ren_pure (by simp only [renameStmt]))
    have := ren_define hσ c!"this" loc
    rw [hσ.this] at this
    exact ren_scope (ren_bind this fun _ => ren_methods ms)
  | .class x (some e) ms loc => by
    simp only [resolveStmt, renameStmt]
    refine ren_class _ (ren_bind (ren_define hσ x loc) fun _ => ren_bind (ren_superclass hσ x e) fun _ =>
      ren_bind (ren_expr e) fun _ =>
      ren_bind (f := renameMethods σ) ?_ fun _ => ren_pure (by simp only [renameStmt]))
    have h1 := ren_define hσ c!"this" loc
    have h2 := ren_define hσ c!"super" loc
    rw [hσ.this] at h1
    rw [hσ.super] at h2
    exact ren_scope (ren_bind h2 fun _ => ren_scope (ren_bind h1 fun _ => ren_methods ms))
  | .expression e => by
    simp only [resolveStmt, renameStmt]
    exact ren_bind (ren_expr e) fun _ => ren_pure (by simp only [renameStmt])
  | .print e => by
    simp only [resolveStmt, renameStmt]
    exact ren_bind (ren_expr e) fun _ => ren_pure (by simp only [renameStmt])
  | .fun (.mk x d) => by
    simp only [resolveStmt, renameStmt, renameFun_loc]
    exact ren_bind (ren_define hσ x d.loc) fun _ => ren_bind (ren_fn _ d) fun _ => ren_pure (by simp only [renameStmt])
  | .if c a none => by
    simp only [resolveStmt, renameStmt]
    exact ren_bind (ren_expr c) fun _ => ren_bind (ren_stmt a) fun _ => ren_pure (by simp only [renameStmt])
  | .if c a (some b) => by
    simp only [resolveStmt, renameStmt]
    exact ren_bind (ren_expr c) fun _ => ren_bind (ren_stmt a) fun _ =>
      ren_bind (ren_stmt b) fun _ => ren_pure (by simp only [renameStmt])
  | .return e loc => by
    simp only [resolveStmt, renameStmt]
    exact ren_bind (ren_return e loc) fun _ => ren_bind (ren_expr e) fun _ => ren_pure (by simp only [renameStmt])
  | .var x c e loc => by
    simp only [resolveStmt, renameStmt]
    exact ren_bind (ren_declare hσ x loc) fun _ => ren_bind (ren_expr e) fun _ =>
      ren_bind (ren_define hσ x loc) fun _ => ren_pure (by simp only [renameStmt, id])
  | .while c b => by
    simp only [resolveStmt, renameStmt]
    exact ren_bind (ren_expr c) fun _ => ren_bind (ren_stmt b) fun _ => ren_pure (by simp only [renameStmt])
  | .whileIncrement c b i => by
    simp only [resolveStmt, renameStmt]
    exact ren_bind (ren_expr c) fun _ => ren_bind (ren_stmt b) fun _ =>
      ren_bind (ren_expr i) fun _ => ren_pure (by simp only [renameStmt])

theorem ren_stmts : ∀ ss, Ren σ (renameStmts σ) (resolveStmts ss) (resolveStmts (renameStmts σ ss))
  | [] => by
    simp only [resolveStmts, renameStmts]
    exact ren_pure (by simp only [renameStmts])
  | s :: ss => by
    simp only [resolveStmts, renameStmts]
    exact ren_bind (ren_stmt s) fun _ => ren_bind (ren_stmts ss) fun _ => ren_pure (by simp only [renameStmts])

theorem ren_expr : ∀ e, Ren σ (renameExpr σ) (resolveExpr e) (resolveExpr (renameExpr σ e))
  | .assign x c r loc => by
    simp only [resolveExpr, renameExpr]
    exact ren_bind (ren_expr r) fun _ => ren_bind (ren_local hσ x loc) fun _ => ren_pure (by simp only [renameExpr, id])
  | .binary a op b loc => by
    simp only [resolveExpr, renameExpr]
    exact ren_bind (ren_expr a) fun _ => ren_bind (ren_expr b) fun _ => ren_pure (by simp only [renameExpr])
  | .call f args loc => by
    simp only [resolveExpr, renameExpr]
    exact ren_bind (ren_expr f) fun _ => ren_bind (ren_exprs args) fun _ => ren_pure (by simp only [renameExpr])
  | .function d => by
    simp only [resolveExpr, renameExpr]
    exact ren_bind (ren_fn _ d) fun _ => ren_pure (by simp only [renameExpr])
  | .get o n loc => by
    simp only [resolveExpr, renameExpr]
    exact ren_bind (ren_expr o) fun _ => ren_pure (by simp only [renameExpr])
  | .getIndex a b loc => by
    simp only [resolveExpr, renameExpr]
    exact ren_bind (ren_expr a) fun _ => ren_bind (ren_expr b) fun _ => ren_pure (by simp only [renameExpr])
  | .grouping e => by
    simp only [resolveExpr, renameExpr]
    exact ren_bind (ren_expr e) fun _ => ren_pure (by simp only [renameExpr])
  | .literalArray es => by
    simp only [resolveExpr, renameExpr]
    exact ren_bind (ren_exprs es) fun _ => ren_pure (by simp only [renameExpr])
  | .literalBool b => by
    simp only [resolveExpr, renameExpr]
    exact ren_pure (by simp only [renameExpr])
  | .literalMap ms => by
    simp only [resolveExpr, renameExpr]
    exact ren_bind (ren_entries ms) fun _ => ren_pure (by simp only [renameExpr])
  | .literalNil => by
    simp only [resolveExpr, renameExpr]
    exact ren_pure (by simp only [renameExpr])
  | .literalNumber x => by
    simp only [resolveExpr, renameExpr]
    exact ren_pure (by simp only [renameExpr])
  | .literalString x => by
    simp only [resolveExpr, renameExpr]
    exact ren_pure (by simp only [renameExpr])
  | .logical a op b => by
    simp only [resolveExpr, renameExpr]
    exact ren_bind (ren_expr a) fun _ => ren_bind (ren_expr b) fun _ => ren_pure (by simp only [renameExpr])
  | .set a n b loc => by
    simp only [resolveExpr, renameExpr]
    exact ren_bind (ren_expr a) fun _ => ren_bind (ren_expr b) fun _ => ren_pure (by simp only [renameExpr])
  | .setIndex a b c loc => by
    simp only [resolveExpr, renameExpr]
    exact ren_bind (ren_expr a) fun _ => ren_bind (ren_expr b) fun _ =>
      ren_bind (ren_expr c) fun _ => ren_pure (by simp only [renameExpr])
  | .super c n loc => by
    simp only [resolveExpr, renameExpr]
    exact ren_bind (ren_super hσ loc) fun _ => ren_pure (by simp only [renameExpr, id])
  | .unary op e loc => by
    simp only [resolveExpr, renameExpr]
    exact ren_bind (ren_expr e) fun _ => ren_pure (by simp only [renameExpr])
  | .variable x c loc => by
    simp only [resolveExpr, renameExpr]
    exact ren_bind (ren_variable hσ x loc) fun _ => ren_pure (by simp only [renameExpr, id])

theorem ren_exprs : ∀ es, Ren σ (renameExprs σ) (resolveExprs es) (resolveExprs (renameExprs σ es))
  | [] => by
    simp only [resolveExprs, renameExprs]
    exact ren_pure (by simp only [renameExprs])
  | s :: ss => by
    simp only [resolveExprs, renameExprs]
    exact ren_bind (ren_expr s) fun _ => ren_bind (ren_exprs ss) fun _ => ren_pure (by simp only [renameExprs])

theorem ren_entries : ∀ ms, Ren σ (renameEntries σ) (resolveEntries ms) (resolveEntries (renameEntries σ ms))
  | [] => by
    simp only [resolveEntries, renameEntries]
    exact ren_pure (by simp only [renameEntries])
  | .mk k v :: ms => by
    simp only [resolveEntries, renameEntries]
    exact ren_bind (ren_expr v) fun _ => ren_bind (ren_entries ms) fun _ => ren_pure (by simp only [renameEntries])

theorem ren_methods : ∀ ms, Ren σ (renameMethods σ) (resolveMethods ms) (resolveMethods (renameMethods σ ms))
  | [] => by
    simp only [resolveMethods, renameMethods]
    exact ren_pure (by simp only [renameMethods])
  | .mk k d :: ms => by
    simp only [resolveMethods, renameMethods]
    exact ren_bind (ren_fn _ d) fun _ => ren_bind (ren_methods ms) fun _ => ren_pure (by simp only [renameMethods])

theorem ren_fn : ∀ ft d, Ren σ (renameFun σ) (resolveFunction ft d) (resolveFunction ft (renameFun σ d))
  | ft, .mk ps b k loc => by
    simp only [resolveFunction, renameFun]
    exact ren_bind (ren_function _ (ren_scope (ren_bind (ren_params hσ ps) fun _ => ren_stmts b))) fun _ =>
      ren_pure (by simp only [renameFun])
end

end Ws
