import Verif.Proofs.Resolve.Rename
import Verif.Proofs.Resolve.Boxed
import Verif.Spec.Params
/-! Resolving a function whose parameters are renamed. -/
namespace Ws
open Ws.Spec

/-- The scopes inside a function, and inside the one whose parameters are renamed. The names in `Ps` are known in the
function's scope; there are `n` scopes inside. -/
inductive InFun (σ : Str → Str) (Ps : List Str) : Nat → List Scope → List Scope → Prop
  | fn {f : Scope} {outer} : outer ≠ [] → (∀ p ∈ Ps, (f.get p).isSome) → InFun σ Ps 0 (f :: outer) (renScope σ f :: outer)
  | cons {n A B} (s : Scope) : InFun σ Ps n A B → InFun σ Ps (n + 1) (s :: A) (renScope σ s :: B)

structure InFunR (σ : Str → Str) (Ps : List Str) (n : Nat) (rs rs' : Resolver) : Prop where
  scopes : InFun σ Ps n rs.scopes rs'.scopes
  fn : rs'.functionType = rs.functionType
  cls : rs'.classType = rs.classType

/-- The second result is that of the renamed program. -/
inductive ARes (σ : Str → Str) (Ps : List Str) (n : Nat) {α β : Type} (f : α → β) : Res Resolver Cause α → Res Resolver Cause β → Prop
  | ok (a) {rs rs'} : InFunR σ Ps n rs rs' → ARes σ Ps n f (.ok a rs) (.ok (f a) rs')
  | err {c c' rs rs'} : InFunR σ [] n rs rs' → RenamedCause σ c c' → ARes σ Ps n f (.err c rs) (.err c' rs')
  | panic (m) : ARes σ Ps n f (.panic m) (.panic m)
  | diverge : ARes σ Ps n f .diverge .diverge

def AE (σ : Str → Str) (Ps : List Str) {α β : Type} (f : α → β) (x : R α) (x' : R β) : Prop :=
  ∀ n rs rs', InFunR σ Ps n rs rs' → ARes σ Ps n f (x rs) (x' rs')

/-- The name of the event is one of `Ps`, or stays the same. -/
def Known (σ : Str → Str) (Ps : List Str) : Event → Prop
  | .declare x _ | .use x _ => x ∈ Ps ∨ σ x = x
  | .enter _ | .leave => True

variable {σ : Str → Str} {Ps : List Str}

theorem InFun.weaken {n A B Qs} (hs : ∀ p ∈ Qs, p ∈ Ps) (h : InFun σ Ps n A B) : InFun σ Qs n A B := by
  induction h with
  | fn h1 h2 => exact .fn h1 fun p hp => h2 p (hs p hp)
  | cons s _ ih => exact .cons s ih

theorem InFunR.weaken {n rs rs' Qs} (hs : ∀ p ∈ Qs, p ∈ Ps) (h : InFunR σ Ps n rs rs') : InFunR σ Qs n rs rs' :=
  ⟨h.scopes.weaken hs, h.fn, h.cls⟩

theorem InFunR.plain {n rs rs'} (h : InFunR σ Ps n rs rs') : InFunR σ [] n rs rs' := h.weaken (fun _ h => by cases h)

theorem InFun.length {n A B} (h : InFun σ Ps n A B) : B.length = A.length ∧ 2 ≤ A.length := by
  induction h with
  | fn h1 h2 =>
    refine ⟨rfl, ?_⟩
    have := List.length_pos_iff.mpr h1
    simp only [List.length_cons]
    omega
  | cons s _ ih => simp only [List.length_cons]; omega

theorem InFun.last {n A B} (h : InFun σ Ps n A B) : B.getLast? = A.getLast? := by
  induction h with
  | @fn f outer h1 h2 =>
    cases outer with
    | nil => exact absurd rfl h1
    | cons o os => simp [List.getLast?_cons_cons]
  | @cons n A B s h ih =>
    have := h.length
    cases A with
    | nil => simp at this
    | cons a A =>
      cases B with
      | nil => simp at this
      | cons b B => simp only [List.getLast?_cons_cons, ih]

theorem setGlobal_ne {ss : List Scope} (h : ss ≠ []) (g) : setGlobal ss g ≠ [] := by
  cases ss with
  | nil => exact absurd rfl h
  | cons a b => cases b <;> simp [setGlobal]

theorem InFun.global {n A B} (h : InFun σ Ps n A B) (g) : InFun σ Ps n (setGlobal A g) (setGlobal B g) := by
  induction h with
  | @fn f outer h1 h2 =>
    rw [setGlobal_cons h1, setGlobal_cons h1]
    exact .fn (setGlobal_ne h1 g) h2
  | @cons n A B s h ih =>
    have := h.length
    rw [setGlobal_cons (fun e => by subst e; simp at this), setGlobal_cons (fun e => by subst e; simp at this; omega)]
    exact .cons s ih

theorem InFun.top {n A B} (h : InFun σ Ps n A B) : ∃ s A' B', A = s :: A' ∧ B = renScope σ s :: B' ∧ A' ≠ [] ∧
    B'.length = A'.length ∧
    ∀ s2 : Scope, (∀ p, (s.get p).isSome → (s2.get p).isSome) → InFun σ Ps n (s2 :: A') (renScope σ s2 :: B') := by
  cases h with
  | fn h1 h2 => exact ⟨_, _, _, rfl, rfl, h1, rfl, fun s2 h => .fn h1 fun p hp => h p (h2 p hp)⟩
  | cons s h =>
    have := h.length
    exact ⟨_, _, _, rfl, rfl, fun e => by subst e; simp at this, this.1, fun s2 _ => .cons s2 h⟩

theorem ar_pure {α β : Type} {f : α → β} {a : α} {b : β} (h : f a = b) : AE σ Ps f (pure a) (pure b) := by
  subst h
  exact fun n rs rs' h => .ok a h

theorem ar_bind {α β γ δ : Type} {f : α → β} {g : γ → δ} {x : R α} {x' : R β} {k : α → R γ} {k' : β → R δ}
    (h : AE σ Ps f x x') (hk : ∀ a, AE σ Ps g (k a) (k' (f a))) : AE σ Ps g (x >>= k) (x' >>= k') := by
  intro n rs rs' hr
  have h1 := h n rs rs' hr
  show ARes σ Ps n g (M.bind x k rs) (M.bind x' k' rs')
  unfold M.bind
  revert h1
  generalize x rs = r
  generalize x' rs' = r'
  intro h1
  cases h1 with
  | ok a h => exact hk a _ _ _ h
  | err h1 h => exact .err h1 h
  | panic m => exact .panic m
  | diverge => exact .diverge

theorem ar_finally {α β : Type} {f : α → β} {x : R α} {x' : R β} {e e' : Resolver → Resolver} {rs : Resolver} {rs'} {n m}
    (h : ARes σ Ps n f (x rs) (x' rs')) (he : ∀ Qs t t', InFunR σ Qs n t t' → InFunR σ Qs m (e t) (e' t')) :
    ARes σ Ps m f (andFinally x e rs) (andFinally x' e' rs') := by
  unfold andFinally
  revert h
  generalize x rs = r
  generalize x' rs' = r'
  intro h1
  cases h1 with
  | ok a h => exact .ok a (he _ _ _ h)
  | err h1 h => exact .err (he _ _ _ h1) h
  | panic m => exact .panic m
  | diverge => exact .diverge

theorem ar_scope {α β : Type} {f : α → β} {x : R α} {x' : R β} (h : AE σ Ps f x x') :
    AE σ Ps f (inNewScope x) (inNewScope x') := by
  intro n rs rs' hr
  unfold inNewScope
  show ARes σ Ps n f (M.bind beginScope _ rs) (M.bind beginScope _ rs')
  unfold M.bind beginScope
  simp only [hr.scopes.length.1]
  by_cases hl : rs.scopes.length ≥ varLocMaxDistance
  · simp only [hl, if_true]
    exact .panic _
  · simp only [hl, if_false]
    refine ar_finally (n := n + 1) (h _ _ _ ⟨.cons [] hr.scopes, hr.fn, hr.cls⟩) ?_
    rintro Qs ⟨A, b, c⟩ ⟨B, b', c'⟩ ⟨h1, h2, h3⟩
    dsimp only at h1 h2 h3
    cases h1 with
    | cons s h => exact ⟨h, h2, h3⟩

theorem ar_function {α β : Type} {f : α → β} {x : R α} {x' : R β} (ft) (h : AE σ Ps f x x') :
    AE σ Ps f (withFunctionType ft x) (withFunctionType ft x') := by
  intro n rs rs' hr
  refine ar_finally (h n { rs with functionType := ft } { rs' with functionType := ft } ⟨hr.scopes, rfl, hr.cls⟩) ?_
  exact fun _ _ _ h => ⟨h.scopes, hr.fn, h.cls⟩

theorem ar_class {α β : Type} {f : α → β} {x : R α} {x' : R β} (ct) (h : AE σ Ps f x x') :
    AE σ Ps f (withClassType ct x) (withClassType ct x') := by
  intro n rs rs' hr
  refine ar_finally (h n { rs with classType := ct } { rs' with classType := ct } ⟨hr.scopes, hr.fn, rfl⟩) ?_
  exact fun _ _ _ h => ⟨h.scopes, h.fn, hr.cls⟩

/-- An error that quotes the name. -/
theorem ar_throw {α β : Type} {f : α → β} (loc x msg) :
    AE σ Ps f (M.throw (.newWithLocation loc x msg) : R α) (M.throw (.newWithLocation loc (σ x) msg) : R β) :=
  fun _ _ _ h => .err h.plain ⟨rfl, rfl, .inr rfl⟩

/-- An error that quotes a keyword. -/
theorem ar_throw_same {α β : Type} {f : α → β} (c) : AE σ Ps f (M.throw c : R α) (M.throw c : R β) :=
  fun _ _ _ h => .err h.plain ⟨rfl, rfl, .inl rfl⟩

variable (hσ : Renaming σ)
include hσ
set_option linter.unusedSectionVars false

omit hσ in
theorem keep_insert {s : Scope} {x : Str} {v : VarState} (h : s.get x = none) (p) (hp : (s.get p).isSome) : ((s.insertNew x v).get p).isSome := by
  by_cases e : p = x
  · subst e; rw [h] at hp; cases hp
  · rw [get_insert_other e]; exact hp

omit hσ in
theorem keep_set {s : Scope} {x : Str} {st} {v : VarState} (h : s.get x = some v) (p) (hp : (s.get p).isSome) : ((s.setState x st).get p).isSome := by
  by_cases e : p = x
  · subst e; rw [get_setState h]; rfl
  · rw [get_state_other e]; exact hp

theorem ar_define (x loc) : AE σ Ps id (define x loc) (define (σ x) loc) := by
  rintro n ⟨A, ft, ct⟩ ⟨B, ft', ct'⟩ ⟨h, h2, h3⟩
  dsimp only at h h2 h3
  subst h2 h3
  obtain ⟨s, A', B', rfl, rfl, ne, len, up⟩ := h.top
  unfold define ensureScopeIndexLimit
  simp only [bind, M.bind, M.get, ren_length]
  by_cases hl : s.length > varLocMaxDistance
  · simp only [hl, if_true, M.throw]
    exact .err (c := .newWithLocation loc x _) (InFunR.plain ⟨h, rfl, rfl⟩) ⟨rfl, rfl, .inr rfl⟩
  · simp only [hl, if_false, pure, M.pure, ren_get hσ, Resolver.isInGlobalScope, List.length_cons, len]
    cases hg : s.get x with
    | none =>
      simp only [M.modify, Resolver.setInnermost, List.tail_cons]
      rw [ren_insertNew]
      exact .ok () ⟨up _ (keep_insert hg), rfl, rfl⟩
    | some v =>
      obtain ⟨slot, st⟩ := v
      cases st with
      | undefinedVar =>
        simp only [M.modify, Resolver.setInnermost, List.tail_cons]
        rw [ren_setState hσ]
        exact .ok () ⟨up _ (keep_set hg), rfl, rfl⟩
      | declaredVar =>
        simp only [M.modify, Resolver.setInnermost, List.tail_cons]
        rw [ren_setState hσ]
        exact .ok () ⟨up _ (keep_set hg), rfl, rfl⟩
      | definedVar =>
        cases A' with
        | nil => exact absurd rfl ne
        | cons a A' =>
          cases B' with
          | nil => simp at len
          | cons b B' => exact ar_throw loc x _ n ⟨s :: a :: A', ft', ct'⟩ ⟨renScope σ s :: b :: B', ft', ct'⟩ ⟨h, rfl, rfl⟩

theorem ar_declare (x loc) : AE σ Ps id (declare x loc) (declare (σ x) loc) := by
  rintro n ⟨A, ft, ct⟩ ⟨B, ft', ct'⟩ ⟨h, h2, h3⟩
  dsimp only at h h2 h3
  subst h2 h3
  obtain ⟨s, A', B', rfl, rfl, ne, len, up⟩ := h.top
  unfold declare ensureScopeIndexLimit
  simp only [bind, M.bind, M.get, ren_length]
  by_cases hl : s.length > varLocMaxDistance
  · simp only [hl, if_true, M.throw]
    exact .err (c := .newWithLocation loc x _) (InFunR.plain ⟨h, rfl, rfl⟩) ⟨rfl, rfl, .inr rfl⟩
  · simp only [hl, if_false, pure, M.pure, ren_get hσ, Resolver.isInGlobalScope, List.length_cons, len]
    cases hg : s.get x with
    | none =>
      simp only [M.modify, M.bind, M.pure, Resolver.setInnermost, List.tail_cons]
      rw [ren_insertNew]
      exact .ok _ ⟨up _ (keep_insert hg), rfl, rfl⟩
    | some v =>
      obtain ⟨slot, st⟩ := v
      cases st with
      | undefinedVar =>
        simp only [M.modify, M.bind, M.pure, Resolver.setInnermost, List.tail_cons]
        rw [ren_setState hσ]
        exact .ok _ ⟨up _ (keep_set hg), rfl, rfl⟩
      | declaredVar =>
        cases A' with
        | nil => exact absurd rfl ne
        | cons a A' =>
          cases B' with
          | nil => simp at len
          | cons b B' => exact ar_throw loc x _ n ⟨s :: a :: A', ft', ct'⟩ ⟨renScope σ s :: b :: B', ft', ct'⟩ ⟨h, rfl, rfl⟩
      | definedVar =>
        cases A' with
        | nil => exact absurd rfl ne
        | cons a A' =>
          cases B' with
          | nil => simp at len
          | cons b B' => exact ar_throw loc x _ n ⟨s :: a :: A', ft', ct'⟩ ⟨renScope σ s :: b :: B', ft', ct'⟩ ⟨h, rfl, rfl⟩

theorem ar_find {x : Str} (hx : x ∈ Ps ∨ σ x = x) {n A B} (h : InFun σ Ps n A B) (m : Nat) :
    findVar (σ x) B m = findVar x A m ∧ (findVar x A m = none → σ x = x) := by
  induction h generalizing m with
  | @fn f outer h1 h2 =>
    simp only [findVar, ren_get hσ]
    cases hg : f.get x with
    | some v => exact ⟨rfl, fun h => by simp at h⟩
    | none =>
      rcases hx with hx | hx
      · have := h2 x hx
        rw [hg] at this
        cases this
      · exact ⟨by rw [hx], fun _ => hx⟩
  | cons s h ih =>
    simp only [findVar, ren_get hσ]
    cases hg : s.get x with
    | some v => exact ⟨rfl, fun h => by simp at h⟩
    | none => exact ih _

omit hσ in
theorem ar_reserve (x loc) (hx : σ x = x) : AE σ Ps id (forwardReserveGlobalVar x loc) (forwardReserveGlobalVar (σ x) loc) := by
  rintro n ⟨A, ft, ct⟩ ⟨B, ft', ct'⟩ ⟨h, h2, h3⟩
  dsimp only at h h2 h3
  subst h2 h3
  rw [hx]
  unfold forwardReserveGlobalVar ensureScopeIndexLimit
  simp only [bind, M.bind, M.get, h.last]
  cases hg : A.getLast? with
  | none => exact .panic _
  | some s =>
    dsimp only
    by_cases hl : s.length > varLocMaxDistance
    · simp only [hl, if_true]
      exact .err (InFunR.plain ⟨h, rfl, rfl⟩) ⟨rfl, rfl, .inl rfl⟩
    · simp only [hl, if_false, pure]
      cases hg : s.get x with
      | some v => exact .panic _
      | none =>
        simp only [M.modify, M.bind, M.pure]
        exact .ok _ ⟨h.global _, rfl, rfl⟩

theorem ar_local (x loc) (hx : x ∈ Ps ∨ σ x = x) : AE σ Ps id (resolveLocalVariable x loc) (resolveLocalVariable (σ x) loc) := by
  intro n rs rs' h
  unfold resolveLocalVariable
  show ARes σ Ps n id (M.bind M.get _ rs) (M.bind M.get _ rs')
  simp only [M.bind, M.get]
  obtain ⟨h1, h2⟩ := ar_find hσ hx h.scopes 0
  simp only [h1, h.scopes.length.1]
  cases hf : findVar x rs.scopes 0 with
  | some p => exact .ok _ h
  | none =>
    refine ar_bind (ar_reserve x loc (h2 hf)) ?_ n rs rs' h
    intro n
    split
    · exact ar_pure rfl
    · exact fun _ _ _ _ => .panic _

theorem ar_variable (x loc) (hx : x ∈ Ps ∨ σ x = x) : AE σ Ps id (resolveVariable x loc) (resolveVariable (σ x) loc) := by
  intro n rs rs' h
  unfold resolveVariable
  show ARes σ Ps n id (M.bind M.get _ rs) (M.bind M.get _ rs')
  simp only [M.bind, M.get, ren_this hσ, h.cls]
  by_cases hc : rs.classType = .noClass ∧ x = c!"this"
  · rw [if_pos hc, if_pos hc]
    exact ar_throw_same _ n rs rs' h
  · rw [if_neg hc, if_neg hc]
    obtain ⟨s, A', B', e1, e2, ne, len, up⟩ := h.scopes.top
    rw [e1, e2]
    simp only [ren_get hσ]
    split
    · exact ar_throw _ _ _ n rs rs' h
    · exact ar_local hσ x loc hx n rs rs' h

theorem ar_super (loc) : AE σ Ps id (resolveSuper loc) (resolveSuper loc) := by
  intro n rs rs' h
  unfold resolveSuper
  show ARes σ Ps n id (M.bind M.get _ rs) (M.bind M.get _ rs')
  simp only [M.bind, M.get, h.cls]
  cases rs.classType with
  | noClass => exact ar_throw_same _ n rs rs' h
  | plainClass => exact ar_throw_same _ n rs rs' h
  | subclass =>
    have := ar_local hσ c!"super" loc (.inr hσ.super) n rs rs' h
    rw [hσ.super] at this
    exact this

omit hσ in
theorem ar_return (e loc) : AE σ Ps id (checkReturn e loc) (checkReturn (renameExpr σ e) loc) := by
  intro n rs rs' h
  unfold checkReturn
  show ARes σ Ps n id (M.bind M.get _ rs) (M.bind M.get _ rs')
  simp only [M.bind, M.get, h.fn]
  cases rs.functionType with
  | noFunction => exact ar_throw_same _ n rs rs' h
  | plain => exact .ok _ h
  | method => exact .ok _ h
  | initializer =>
    cases e <;> simp only [renameExpr] <;> first | exact ar_throw_same _ n rs rs' h | exact .ok _ h

theorem ar_superclass (x e) : AE σ Ps id (checkSuperclass x (some e)) (checkSuperclass (σ x) (some (renameExpr σ e))) := by
  intro n rs rs' h
  unfold checkSuperclass
  cases e with
  | «variable» y c loc =>
    simp only [renameExpr]
    by_cases hy : y = x
    · subst hy
      rw [if_pos rfl, if_pos rfl]
      exact ar_throw _ _ _ n rs rs' h
    · rw [if_neg hy, if_neg (fun e => hy (hσ.inj _ _ e))]
      exact .ok _ h
  | _ => simp only [renameExpr]; exact .ok _ h

theorem ar_params : ∀ ps : List Parameter,
    AE σ Ps id (defineParams ps) (defineParams (ps.map fun p => { p with name := σ p.name }))
  | [] => ar_pure rfl
  | p :: ps => ar_bind (ar_define hσ p.name p.loc) fun _ => ar_params ps

macro "kn" h:ident : tactic => `(tactic| simp [stmtEvents, stmtsEvents, exprEvents, exprsEvents, entriesEvents, methodsEvents, funEvents, $h:ident])
macro "kn0" : tactic => `(tactic| simp [exprEvents])

mutual
theorem ar_stmt : ∀ s, (∀ ev ∈ stmtEvents s, Known σ Ps ev) → AE σ Ps (renameStmt σ) (resolveStmt s) (resolveStmt (renameStmt σ s))
  | .block b, hq => by
    simp only [resolveStmt, renameStmt]
    exact ar_bind (ar_scope (ar_stmts b (fun _ h => hq _ (by kn h)))) fun _ => ar_pure (by simp only [renameStmt])
  | .break loc, hq => by
    simp only [resolveStmt, renameStmt]
    exact ar_pure (by simp only [renameStmt])
  | .continue loc, hq => by
    simp only [resolveStmt, renameStmt]
    exact ar_pure (by simp only [renameStmt])
  | .class x none ms loc, hq => by
    simp only [resolveStmt, renameStmt]
    refine ar_class _ (ar_bind (ar_define hσ x loc) fun _ => ar_bind (f := id) (fun _ _ _ h => .ok _ h) fun _ =>
      ar_bind (f := renameMethods σ) ?_ fun _ => ar_pure (by simp only [renameStmt]))
    have := ar_define (Ps := Ps) hσ c!"this" loc
    rw [hσ.this] at this
    exact ar_scope (ar_bind this fun _ => ar_methods ms (fun _ h => hq _ (by kn h)))
  | .class x (some e) ms loc, hq => by
    simp only [resolveStmt, renameStmt]
    refine ar_class _ (ar_bind (ar_define hσ x loc) fun _ => ar_bind (ar_superclass hσ x e) fun _ =>
      ar_bind (ar_expr e (fun _ h => hq _ (by kn h))) fun _ =>
      ar_bind (f := renameMethods σ) ?_ fun _ => ar_pure (by simp only [renameStmt]))
    have h1 := ar_define (Ps := Ps) hσ c!"this" loc
    have h2 := ar_define (Ps := Ps) hσ c!"super" loc
    rw [hσ.this] at h1
    rw [hσ.super] at h2
    exact ar_scope (ar_bind h2 fun _ => ar_scope (ar_bind h1 fun _ => ar_methods ms (fun _ h => hq _ (by kn h))))
  | .expression e, hq => by
    simp only [resolveStmt, renameStmt]
    exact ar_bind (ar_expr e (fun _ h => hq _ (by kn h))) fun _ => ar_pure (by simp only [renameStmt])
  | .print e, hq => by
    simp only [resolveStmt, renameStmt]
    exact ar_bind (ar_expr e (fun _ h => hq _ (by kn h))) fun _ => ar_pure (by simp only [renameStmt])
  | .fun (.mk x d), hq => by
    simp only [resolveStmt, renameStmt, renameFun_loc]
    exact ar_bind (ar_define hσ x d.loc) fun _ => ar_bind (ar_fn _ d (fun _ h => hq _ (by kn h))) fun _ => ar_pure (by simp only [renameStmt])
  | .if c a none, hq => by
    simp only [resolveStmt, renameStmt]
    exact ar_bind (ar_expr c (fun _ h => hq _ (by kn h))) fun _ => ar_bind (ar_stmt a (fun _ h => hq _ (by kn h))) fun _ => ar_pure (by simp only [renameStmt])
  | .if c a (some b), hq => by
    simp only [resolveStmt, renameStmt]
    exact ar_bind (ar_expr c (fun _ h => hq _ (by kn h))) fun _ => ar_bind (ar_stmt a (fun _ h => hq _ (by kn h))) fun _ =>
      ar_bind (ar_stmt b (fun _ h => hq _ (by kn h))) fun _ => ar_pure (by simp only [renameStmt])
  | .return e loc, hq => by
    simp only [resolveStmt, renameStmt]
    exact ar_bind (ar_return e loc) fun _ => ar_bind (ar_expr e (fun _ h => hq _ (by kn h))) fun _ => ar_pure (by simp only [renameStmt])
  | .var x c e loc, hq => by
    simp only [resolveStmt, renameStmt]
    exact ar_bind (ar_declare hσ x loc) fun _ => ar_bind (ar_expr e (fun _ h => hq _ (by kn h))) fun _ =>
      ar_bind (ar_define hσ x loc) fun _ => ar_pure (by simp only [renameStmt, id])
  | .while c b, hq => by
    simp only [resolveStmt, renameStmt]
    exact ar_bind (ar_expr c (fun _ h => hq _ (by kn h))) fun _ => ar_bind (ar_stmt b (fun _ h => hq _ (by kn h))) fun _ => ar_pure (by simp only [renameStmt])
  | .whileIncrement c b i, hq => by
    simp only [resolveStmt, renameStmt]
    exact ar_bind (ar_expr c (fun _ h => hq _ (by kn h))) fun _ => ar_bind (ar_stmt b (fun _ h => hq _ (by kn h))) fun _ =>
      ar_bind (ar_expr i (fun _ h => hq _ (by kn h))) fun _ => ar_pure (by simp only [renameStmt])

theorem ar_stmts : ∀ ss, (∀ ev ∈ stmtsEvents ss, Known σ Ps ev) → AE σ Ps (renameStmts σ) (resolveStmts ss) (resolveStmts (renameStmts σ ss))
  | [], hq => by
    simp only [resolveStmts, renameStmts]
    exact ar_pure (by simp only [renameStmts])
  | s :: ss, hq => by
    simp only [resolveStmts, renameStmts]
    exact ar_bind (ar_stmt s (fun _ h => hq _ (by kn h))) fun _ => ar_bind (ar_stmts ss (fun _ h => hq _ (by kn h))) fun _ => ar_pure (by simp only [renameStmts])

theorem ar_expr : ∀ e, (∀ ev ∈ exprEvents e, Known σ Ps ev) → AE σ Ps (renameExpr σ) (resolveExpr e) (resolveExpr (renameExpr σ e))
  | .assign x c r loc, hq => by
    simp only [resolveExpr, renameExpr]
    exact ar_bind (ar_expr r (fun _ h => hq _ (by kn h))) fun _ => ar_bind (ar_local hσ x loc (hq (.use x c) (by kn0))) fun _ => ar_pure (by simp only [renameExpr, id])
  | .binary a op b loc, hq => by
    simp only [resolveExpr, renameExpr]
    exact ar_bind (ar_expr a (fun _ h => hq _ (by kn h))) fun _ => ar_bind (ar_expr b (fun _ h => hq _ (by kn h))) fun _ => ar_pure (by simp only [renameExpr])
  | .call f args loc, hq => by
    simp only [resolveExpr, renameExpr]
    exact ar_bind (ar_expr f (fun _ h => hq _ (by kn h))) fun _ => ar_bind (ar_exprs args (fun _ h => hq _ (by kn h))) fun _ => ar_pure (by simp only [renameExpr])
  | .function d, hq => by
    simp only [resolveExpr, renameExpr]
    exact ar_bind (ar_fn _ d (fun _ h => hq _ (by kn h))) fun _ => ar_pure (by simp only [renameExpr])
  | .get o n loc, hq => by
    simp only [resolveExpr, renameExpr]
    exact ar_bind (ar_expr o (fun _ h => hq _ (by kn h))) fun _ => ar_pure (by simp only [renameExpr])
  | .getIndex a b loc, hq => by
    simp only [resolveExpr, renameExpr]
    exact ar_bind (ar_expr a (fun _ h => hq _ (by kn h))) fun _ => ar_bind (ar_expr b (fun _ h => hq _ (by kn h))) fun _ => ar_pure (by simp only [renameExpr])
  | .grouping e, hq => by
    simp only [resolveExpr, renameExpr]
    exact ar_bind (ar_expr e (fun _ h => hq _ (by kn h))) fun _ => ar_pure (by simp only [renameExpr])
  | .literalArray es, hq => by
    simp only [resolveExpr, renameExpr]
    exact ar_bind (ar_exprs es (fun _ h => hq _ (by kn h))) fun _ => ar_pure (by simp only [renameExpr])
  | .literalBool b, hq => by
    simp only [resolveExpr, renameExpr]
    exact ar_pure (by simp only [renameExpr])
  | .literalMap ms, hq => by
    simp only [resolveExpr, renameExpr]
    exact ar_bind (ar_entries ms (fun _ h => hq _ (by kn h))) fun _ => ar_pure (by simp only [renameExpr])
  | .literalNil, hq => by
    simp only [resolveExpr, renameExpr]
    exact ar_pure (by simp only [renameExpr])
  | .literalNumber x, hq => by
    simp only [resolveExpr, renameExpr]
    exact ar_pure (by simp only [renameExpr])
  | .literalString x, hq => by
    simp only [resolveExpr, renameExpr]
    exact ar_pure (by simp only [renameExpr])
  | .logical a op b, hq => by
    simp only [resolveExpr, renameExpr]
    exact ar_bind (ar_expr a (fun _ h => hq _ (by kn h))) fun _ => ar_bind (ar_expr b (fun _ h => hq _ (by kn h))) fun _ => ar_pure (by simp only [renameExpr])
  | .set a n b loc, hq => by
    simp only [resolveExpr, renameExpr]
    exact ar_bind (ar_expr a (fun _ h => hq _ (by kn h))) fun _ => ar_bind (ar_expr b (fun _ h => hq _ (by kn h))) fun _ => ar_pure (by simp only [renameExpr])
  | .setIndex a b c loc, hq => by
    simp only [resolveExpr, renameExpr]
    exact ar_bind (ar_expr a (fun _ h => hq _ (by kn h))) fun _ => ar_bind (ar_expr b (fun _ h => hq _ (by kn h))) fun _ =>
      ar_bind (ar_expr c (fun _ h => hq _ (by kn h))) fun _ => ar_pure (by simp only [renameExpr])
  | .super c n loc, hq => by
    simp only [resolveExpr, renameExpr]
    exact ar_bind (ar_super hσ loc) fun _ => ar_pure (by simp only [renameExpr, id])
  | .unary op e loc, hq => by
    simp only [resolveExpr, renameExpr]
    exact ar_bind (ar_expr e (fun _ h => hq _ (by kn h))) fun _ => ar_pure (by simp only [renameExpr])
  | .variable x c loc, hq => by
    simp only [resolveExpr, renameExpr]
    exact ar_bind (ar_variable hσ x loc (hq (.use x c) (by kn0))) fun _ => ar_pure (by simp only [renameExpr, id])

theorem ar_exprs : ∀ es, (∀ ev ∈ exprsEvents es, Known σ Ps ev) → AE σ Ps (renameExprs σ) (resolveExprs es) (resolveExprs (renameExprs σ es))
  | [], hq => by
    simp only [resolveExprs, renameExprs]
    exact ar_pure (by simp only [renameExprs])
  | s :: ss, hq => by
    simp only [resolveExprs, renameExprs]
    exact ar_bind (ar_expr s (fun _ h => hq _ (by kn h))) fun _ => ar_bind (ar_exprs ss (fun _ h => hq _ (by kn h))) fun _ => ar_pure (by simp only [renameExprs])

theorem ar_entries : ∀ ms, (∀ ev ∈ entriesEvents ms, Known σ Ps ev) → AE σ Ps (renameEntries σ) (resolveEntries ms) (resolveEntries (renameEntries σ ms))
  | [], hq => by
    simp only [resolveEntries, renameEntries]
    exact ar_pure (by simp only [renameEntries])
  | .mk k v :: ms, hq => by
    simp only [resolveEntries, renameEntries]
    exact ar_bind (ar_expr v (fun _ h => hq _ (by kn h))) fun _ => ar_bind (ar_entries ms (fun _ h => hq _ (by kn h))) fun _ => ar_pure (by simp only [renameEntries])

theorem ar_methods : ∀ ms, (∀ ev ∈ methodsEvents ms, Known σ Ps ev) → AE σ Ps (renameMethods σ) (resolveMethods ms) (resolveMethods (renameMethods σ ms))
  | [], hq => by
    simp only [resolveMethods, renameMethods]
    exact ar_pure (by simp only [renameMethods])
  | .mk k d :: ms, hq => by
    simp only [resolveMethods, renameMethods]
    exact ar_bind (ar_fn _ d (fun _ h => hq _ (by kn h))) fun _ => ar_bind (ar_methods ms (fun _ h => hq _ (by kn h))) fun _ => ar_pure (by simp only [renameMethods])

theorem ar_fn : ∀ ft d, (∀ ev ∈ funEvents d, Known σ Ps ev) → AE σ Ps (renameFun σ) (resolveFunction ft d) (resolveFunction ft (renameFun σ d))
  | ft, .mk ps b k loc, hq => by
    simp only [resolveFunction, renameFun]
    exact ar_bind (ar_function _ (ar_scope (ar_bind (ar_params hσ ps) fun _ => ar_stmts b (fun _ h => hq _ (by kn h))))) fun _ =>
      ar_pure (by simp only [renameFun])
end

end Ws
