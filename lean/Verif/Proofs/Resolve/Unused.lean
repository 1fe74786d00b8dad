import Verif.Proofs.Resolve.Erase
import Verif.Proofs.Resolve.State
import Verif.Spec.Unused
/-! Resolving a program without declarations that nothing uses. -/
namespace Ws
open Ws.Spec

/-- The second scope is the first one with names of `F` added, all of them defined. -/
structure PadScope (F : List Str) (s s' : Scope) : Prop where
  same : ∀ x, x ∉ F → (s'.get x).map (·.definedState) = (s.get x).map (·.definedState)
  defined : ∀ x ∈ F, ∀ v, s'.get x = some v → v.definedState = .definedVar
  length : s.length ≤ s'.length

/-- The same for all scopes. -/
inductive PadScopes (F : List Str) : List Scope → List Scope → Prop
  | nil : PadScopes F [] []
  | cons {s s' ss ss'} : PadScope F s s' → PadScopes F ss ss' → PadScopes F (s :: ss) (s' :: ss')

theorem PadScopes.length_eq {F : List Str} {ss ss' : List Scope} (h : PadScopes F ss ss') : ss.length = ss'.length := by
  induction h with
  | nil => rfl
  | cons _ _ ih => simp [ih]

/-- The second resolver has names of `F` in addition. -/
structure Padded (F : List Str) (rs rs' : Resolver) : Prop where
  scopes : PadScopes F rs.scopes rs'.scopes
  fn : rs.functionType = rs'.functionType
  cls : rs.classType = rs'.classType

/-- The second result is that of the program with the declarations of `F`. -/
inductive PadRes (X : Cause → Prop) (F : List Str) {α β : Type} (V : α → β → Prop) : Res Resolver Cause α → Res Resolver Cause β → Prop
  | ok {a a' rs rs'} : V a a' → Padded F rs rs' → PadRes X F V (.ok a rs) (.ok a' rs')
  | err (e) {rs rs'} : Padded F rs rs' → PadRes X F V (.err e rs) (.err e rs')
  | excused {e} (r rs') : X e → PadRes X F V r (.err e rs')
  | panic (r m) : PadRes X F V r (.panic m)
  | diverge : PadRes X F V .diverge .diverge

/-- The second program is the first one with declarations of `F`. -/
def Pad (X : Cause → Prop) (F : List Str) {α β : Type} (V : α → β → Prop) (x : R α) (x' : R β) : Prop :=
  ∀ rs rs', Padded F rs rs' → PadRes X F V (x rs) (x' rs')

variable {X : Cause → Prop} {F D : List Str} {α β γ δ : Type}

theorem unnamed_append {as bs : List Act} : Unnamed F (as ++ bs) ↔ Unnamed F as ∧ Unnamed F bs := by
  simp only [Unnamed, List.mem_append]
  exact ⟨fun h => ⟨fun a ha => h a (.inl ha), fun a ha => h a (.inr ha)⟩, fun h a ha => ha.elim (h.1 a) (h.2 a)⟩

theorem unnamed_cons {a : Act} {as : List Act} : Unnamed F (a :: as) ↔ (∀ x ∈ F, a.name ≠ some x) ∧ Unnamed F as := by
  simp only [Unnamed, List.mem_cons]
  exact ⟨fun h => ⟨h a (.inl rfl), fun b hb => h b (.inr hb)⟩, fun h b hb => hb.elim (fun e => e ▸ h.1) (h.2 b)⟩

theorem unnamed_name {x : Str} : (∀ y ∈ F, some x ≠ some y) ↔ x ∉ F :=
  ⟨fun h hx => h x hx rfl, fun h y hy e => h (by cases e; exact hy)⟩

theorem pad_pure {V : α → β → Prop} {a : α} {b : β} (h : V a b) : Pad X F V (pure a) (pure b) :=
  fun _ _ hp => .ok h hp

theorem pad_bind {V : α → β → Prop} {W : γ → δ → Prop} {x : R α} {x' : R β} {k : α → R γ} {k' : β → R δ}
    (h : Pad X F V x x') (hk : ∀ a a', V a a' → Pad X F W (k a) (k' a')) : Pad X F W (x >>= k) (x' >>= k') := by
  intro rs rs' hp
  have h1 := h rs rs' hp
  show PadRes X F W (M.bind x k rs) (M.bind x' k' rs')
  unfold M.bind
  revert h1
  generalize x rs = r
  generalize x' rs' = r'
  intro h1
  cases h1 with
  | ok hv hp1 => exact hk _ _ hv _ _ hp1
  | err e hp1 => exact .err e hp1
  | excused _ _ he => exact .excused _ _ he
  | panic _ m => exact .panic _ m
  | diverge => exact .diverge

theorem pad_finally {V : α → β → Prop} {x : R α} {x' : R β} {e e' : Resolver → Resolver} {rs rs' : Resolver}
    (h : PadRes X F V (x rs) (x' rs')) (he : ∀ t t', Padded F t t' → Padded F (e t) (e' t')) :
    PadRes X F V (andFinally x e rs) (andFinally x' e' rs') := by
  unfold andFinally
  revert h
  generalize x rs = r
  generalize x' rs' = r'
  intro h1
  cases h1 with
  | ok hv hp => exact .ok hv (he _ _ hp)
  | err c hp => exact .err c (he _ _ hp)
  | excused _ _ hc => exact .excused _ _ hc
  | panic _ m => exact .panic _ m
  | diverge => exact .diverge

theorem padScope_nil : PadScope F [] [] := ⟨fun _ _ => rfl, fun _ _ _ h => (nomatch h), Nat.le_refl _⟩

theorem pad_scope {V : α → β → Prop} {x : R α} {x' : R β} (h : Pad X F V x x') :
    Pad X F V (inNewScope x) (inNewScope x') := by
  refine pad_bind (V := fun _ _ => True) ?_ ?_
  · intro rs rs' hp
    unfold beginScope
    rw [hp.scopes.length_eq]
    split
    · exact .panic _ _
    · exact .ok trivial ⟨.cons padScope_nil hp.scopes, hp.fn, hp.cls⟩
  · intro _ _ _ rs rs' hp
    refine pad_finally (h rs rs' hp) fun t t' ht => ⟨?_, ht.fn, ht.cls⟩
    show PadScopes F t.scopes.tail t'.scopes.tail
    have := ht.scopes
    revert this
    generalize t.scopes = a
    generalize t'.scopes = b
    intro this
    cases this with
    | nil => exact .nil
    | cons _ h => exact h

theorem pad_function {V : α → β → Prop} {x : R α} {x' : R β} (ft) (h : Pad X F V x x') :
    Pad X F V (withFunctionType ft x) (withFunctionType ft x') :=
  fun rs rs' hp => pad_finally (h { rs with functionType := ft } { rs' with functionType := ft } ⟨hp.scopes, rfl, hp.cls⟩)
    fun _ _ ht => ⟨ht.scopes, hp.fn, ht.cls⟩

theorem pad_class {V : α → β → Prop} {x : R α} {x' : R β} (ct) (h : Pad X F V x x') :
    Pad X F V (withClassType ct x) (withClassType ct x') :=
  fun rs rs' hp => pad_finally (h { rs with classType := ct } { rs' with classType := ct } ⟨hp.scopes, hp.fn, rfl⟩)
    fun _ _ ht => ⟨ht.scopes, ht.fn, hp.cls⟩

/-! ### Scopes -/

theorem get_insert_other {s : Scope} {x y : Str} {v : VarState} (h : y ≠ x) : (s.insertNew x v).get y = s.get y := by
  simp only [Scope.get, Scope.insertNew, List.lookup_append]
  rw [List.lookup_cons, show (y == x) = false from by simpa using h]
  simp

theorem get_state_other {s : Scope} {x y : Str} {st : DefinedState} (h : y ≠ x) : (s.setState x st).get y = s.get y := by
  induction s with
  | nil => rfl
  | cons p s ih =>
    obtain ⟨k, w⟩ := p
    simp only [Scope.get, Scope.setState] at ih ⊢
    split
    · rename_i hk
      have : x = k := by simpa using hk
      subst this
      rw [List.lookup_cons, List.lookup_cons, show (y == x) = false from by simpa using h]
    · rw [List.lookup_cons, List.lookup_cons, ih]

theorem setState_length {s : Scope} {x : Str} {st : DefinedState} : (s.setState x st).length = s.length := by
  induction s with
  | nil => rfl
  | cons p s ih =>
    obtain ⟨k, w⟩ := p
    simp only [Scope.setState]
    split
    · rfl
    · simp [ih]

theorem padScope_insert {s s' : Scope} {x : Str} (h : PadScope F s s') (hx : x ∉ F) (h1 : s.get x = none) (h2 : s'.get x = none)
    {n n' : Nat} {st : DefinedState} : PadScope F (s.insertNew x ⟨n, st⟩) (s'.insertNew x ⟨n', st⟩) where
  same y hy := by
    by_cases e : y = x
    · subst e
      rw [get_insertNew h1, get_insertNew h2]
      rfl
    · rw [get_insert_other e, get_insert_other e, h.same y hy]
  defined y hy v hv := by
    rw [get_insert_other (fun e : y = x => hx (e ▸ hy))] at hv
    exact h.defined y hy v hv
  length := by have := h.length; simp [Scope.insertNew]; omega

theorem padScope_state {s s' : Scope} {x : Str} (h : PadScope F s s') (hx : x ∉ F) {v v' : VarState} (h1 : s.get x = some v)
    (h2 : s'.get x = some v') {st : DefinedState} : PadScope F (s.setState x st) (s'.setState x st) where
  same y hy := by
    by_cases e : y = x
    · subst e
      rw [get_setState h1, get_setState h2]
      rfl
    · rw [get_state_other e, get_state_other e, h.same y hy]
  defined y hy v hv := by
    rw [get_state_other (fun e : y = x => hx (e ▸ hy))] at hv
    exact h.defined y hy v hv
  length := by rw [setState_length, setState_length]; exact h.length

/-- A name of `F` is added. -/
theorem padScope_new {s s' : Scope} {x : Str} (h : PadScope F s s') (hx : x ∈ F) {n : Nat} (h2 : s'.get x = none) :
    PadScope F s ((s'.insertNew x ⟨n, .declaredVar⟩).setState x .definedVar) where
  same y hy := by
    have hn : y ≠ x := fun e => hy (e ▸ hx)
    rw [get_state_other hn, get_insert_other hn, h.same y hy]
  defined y hy v hv := by
    by_cases e : y = x
    · subst e
      rw [get_setState (get_insertNew h2)] at hv
      cases hv
      rfl
    · rw [get_state_other e, get_insert_other e] at hv
      exact h.defined y hy v hv
  length := by have := h.length; rw [setState_length]; simp [Scope.insertNew]; omega

/-- A name outside `F` is in both scopes, with the same state, or in none. -/
theorem padScope_cases {s s' : Scope} {x : Str} (h : PadScope F s s') (hx : x ∉ F) :
    (s.get x = none ∧ s'.get x = none) ∨ ∃ n n' st, s.get x = some ⟨n, st⟩ ∧ s'.get x = some ⟨n', st⟩ := by
  have := h.same x hx
  cases h1 : s.get x with
  | none =>
    cases h2 : s'.get x with
    | none => exact .inl ⟨rfl, rfl⟩
    | some v => rw [h1, h2] at this; cases this
  | some v =>
    cases h2 : s'.get x with
    | none => rw [h1, h2] at this; cases this
    | some v' =>
      rw [h1, h2] at this
      obtain ⟨n, st⟩ := v
      obtain ⟨n', st'⟩ := v'
      cases this
      exact .inr ⟨n, n', st, rfl, rfl⟩

/-- Too many names in a scope: an error that the program with the declarations may have. -/
def Excuses (X : Cause → Prop) : Prop := ∀ loc x, X (.newWithLocation loc x "Too many local variables in function.")


theorem pad_define (hX : Excuses X) {x : Str} (hx : x ∉ F) (loc) : Pad X F (fun _ _ => True) (define x loc) (define x loc) := by
  rintro ⟨scopes, ft, ct⟩ ⟨scopes', ft', ct'⟩ ⟨h1, h2, h3⟩
  cases h1 with
  | nil => exact .panic _ _
  | @cons s s' ss ss' h h4 =>
    unfold define ensureScopeIndexLimit
    simp only [bind, M.bind, M.get]
    by_cases hl : s'.length > varLocMaxDistance
    · simp only [hl, if_true, M.throw]
      exact .excused _ _ (hX loc x)
    · have hl' : ¬ s.length > varLocMaxDistance := by have := h.length; omega
      have e4 := h4.length_eq
      simp only [hl, hl', if_false, pure, M.pure, Resolver.isInGlobalScope, List.length_cons, e4]
      rcases padScope_cases h hx with ⟨g1, g2⟩ | ⟨n, n', st, g1, g2⟩
      · simp only [g1, g2]
        exact .ok trivial ⟨.cons (padScope_insert h hx g1 g2) h4, h2, h3⟩
      · simp only [g1, g2]
        cases st with
        | undefinedVar => exact .ok trivial ⟨.cons (padScope_state h hx g1 g2) h4, h2, h3⟩
        | declaredVar => exact .ok trivial ⟨.cons (padScope_state h hx g1 g2) h4, h2, h3⟩
        | definedVar =>
          cases h4 with
          | nil => exact .ok trivial ⟨.cons h .nil, h2, h3⟩
          | cons h5 h6 => exact .err _ ⟨.cons h (.cons h5 h6), h2, h3⟩

theorem pad_declare (hX : Excuses X) {x : Str} (hx : x ∉ F) (loc) : Pad X F (fun _ _ => True) (declare x loc) (declare x loc) := by
  rintro ⟨scopes, ft, ct⟩ ⟨scopes', ft', ct'⟩ ⟨h1, h2, h3⟩
  cases h1 with
  | nil => exact .panic _ _
  | @cons s s' ss ss' h h4 =>
    unfold declare ensureScopeIndexLimit
    simp only [bind, M.bind, M.get]
    by_cases hl : s'.length > varLocMaxDistance
    · simp only [hl, if_true, M.throw]
      exact .excused _ _ (hX loc x)
    · have hl' : ¬ s.length > varLocMaxDistance := by have := h.length; omega
      have e4 := h4.length_eq
      simp only [hl, hl', if_false, pure, M.pure, Resolver.isInGlobalScope, List.length_cons, e4]
      rcases padScope_cases h hx with ⟨g1, g2⟩ | ⟨n, n', st, g1, g2⟩
      · simp only [g1, g2]
        exact .ok trivial ⟨.cons (padScope_insert h hx g1 g2) h4, h2, h3⟩
      · simp only [g1, g2]
        cases st with
        | undefinedVar => exact .ok trivial ⟨.cons (padScope_state h hx g1 g2) h4, h2, h3⟩
        | declaredVar =>
          cases h4 with
          | nil => exact .ok trivial ⟨.cons h .nil, h2, h3⟩
          | cons h5 h6 => exact .err _ ⟨.cons h (.cons h5 h6), h2, h3⟩
        | definedVar =>
          cases h4 with
          | nil => exact .ok trivial ⟨.cons h .nil, h2, h3⟩
          | cons h5 h6 => exact .err _ ⟨.cons h (.cons h5 h6), h2, h3⟩

theorem pad_findVar {x : Str} (hx : x ∉ F) {ss ss' : List Scope} (h : PadScopes F ss ss') (d : Nat) :
    (findVar x ss d = none ∧ findVar x ss' d = none) ∨
      ∃ k v v', findVar x ss d = some (k, v) ∧ findVar x ss' d = some (k, v') := by
  induction h generalizing d with
  | nil => exact .inl ⟨rfl, rfl⟩
  | cons h _ ih =>
    simp only [findVar]
    rcases padScope_cases h hx with ⟨g1, g2⟩ | ⟨n, n', st, g1, g2⟩
    · simp only [g1, g2]
      exact ih (d + 1)
    · simp only [g1, g2]
      exact .inr ⟨_, _, _, rfl, rfl⟩

theorem pad_global {x : Str} (hx : x ∉ F) {ss ss' : List Scope} (h : PadScopes F ss ss') :
    (ss.getLast? = none ∧ ss'.getLast? = none) ∨ ∃ g g', ss.getLast? = some g ∧ ss'.getLast? = some g' ∧ PadScope F g g' ∧
      (g.get x = none → g'.get x = none → ∀ n n' st, PadScopes F (setGlobal ss (g.insertNew x ⟨n, st⟩))
        (setGlobal ss' (g'.insertNew x ⟨n', st⟩))) := by
  induction h with
  | nil => exact .inl ⟨rfl, rfl⟩
  | @cons s s' ss ss' h h4 ih =>
    right
    rcases ih with ⟨e1, e2⟩ | ⟨g, g', e1, e2, hg, hs⟩
    · rw [List.getLast?_eq_none_iff] at e1 e2
      subst e1 e2
      exact ⟨s, s', rfl, rfl, h, fun h1 h2 n n' st => .cons (padScope_insert h hx h1 h2) .nil⟩
    · refine ⟨g, g', by simp [List.getLast?_cons, e1], by simp [List.getLast?_cons, e2], hg, fun h1 h2 n n' st => ?_⟩
      have := hs h1 h2 n n' st
      cases h4 with
      | nil => cases e1
      | cons _ _ => exact .cons h this

theorem pad_reserve (hX : Excuses X) {x : Str} (hx : x ∉ F) (loc) :
    Pad X F (fun _ _ => True) (forwardReserveGlobalVar x loc) (forwardReserveGlobalVar x loc) := by
  rintro ⟨scopes, ft, ct⟩ ⟨scopes', ft', ct'⟩ ⟨h1, h2, h3⟩
  unfold forwardReserveGlobalVar ensureScopeIndexLimit
  simp only [bind, M.bind, M.get]
  rcases pad_global hx h1 with ⟨e1, e2⟩ | ⟨s, s', e1, e2, h, hs⟩
  · dsimp only at e1 e2
    rw [e1, e2]
    exact .panic _ _
  · dsimp only at e1 e2
    rw [e1, e2]
    dsimp only
    by_cases hl : s'.length > varLocMaxDistance
    · simp only [hl, if_true]
      exact .excused _ _ (hX loc x)
    · have hl' : ¬ s.length > varLocMaxDistance := by have := h.length; omega
      simp only [hl, hl', if_false, pure]
      rcases padScope_cases h hx with ⟨g1, g2⟩ | ⟨n, n', st, g1, g2⟩
      · simp only [g1, g2]
        exact .ok trivial ⟨hs g1 g2 _ _ _, h2, h3⟩
      · simp only [g1, g2]
        exact .panic _ _

/-- Locations with the same distance. -/
abbrev SameDistance (c c' : VarLoc) : Prop := c.distance = c'.distance

theorem pad_local (hX : Excuses X) {x : Str} (hx : x ∉ F) (loc) : Pad X F SameDistance (resolveLocalVariable x loc) (resolveLocalVariable x loc) := by
  intro rs rs' hp
  unfold resolveLocalVariable
  show PadRes X F _ (M.bind M.get _ rs) (M.bind M.get _ rs')
  simp only [M.bind, M.get]
  rcases pad_findVar hx hp.scopes 0 with ⟨e1, e2⟩ | ⟨k, v, v', e1, e2⟩
  · rw [e1, e2]
    dsimp only
    rw [hp.scopes.length_eq]
    refine pad_bind (pad_reserve hX hx loc) ?_ rs rs' hp
    intro _ _ _
    split
    · exact pad_pure rfl
    · exact fun _ _ _ => .panic _ _
  · rw [e1, e2]
    exact .ok rfl hp

theorem pad_variable (hX : Excuses X) {x : Str} (hx : x ∉ F) (loc) : Pad X F SameDistance (resolveVariable x loc) (resolveVariable x loc) := by
  rintro ⟨scopes, ft, ct⟩ ⟨scopes', ft', ct'⟩ hp
  obtain ⟨h1, h2, h3⟩ := id hp
  dsimp only at h1 h2 h3
  subst h2 h3
  unfold resolveVariable
  simp only [bind, M.bind, M.get]
  split
  · exact .err _ hp
  · cases h1 with
    | nil => exact .panic _ _
    | cons h h4 =>
      dsimp only
      rw [h.same x hx]
      split
      · exact .err _ hp
      · exact pad_local hX hx loc _ _ hp

theorem pad_super (hX : Excuses X) (hx : c!"super" ∉ F) (loc) : Pad X F SameDistance (resolveSuper loc) (resolveSuper loc) := by
  intro rs rs' hp
  unfold resolveSuper
  show PadRes X F _ (M.bind M.get _ rs) (M.bind M.get _ rs')
  simp only [M.bind, M.get]
  rw [hp.cls]
  cases rs'.classType with
  | noClass => exact .err _ hp
  | plainClass => exact .err _ hp
  | subclass => exact pad_local hX hx loc rs rs' hp

theorem pad_return (e loc) : Pad X F (fun _ _ => True) (checkReturn (dropExpr D e) loc) (checkReturn e loc) := by
  intro rs rs' hp
  unfold checkReturn
  show PadRes X F _ (M.bind M.get _ rs) (M.bind M.get _ rs')
  simp only [M.bind, M.get]
  rw [hp.fn]
  cases rs'.functionType with
  | noFunction => exact .err _ hp
  | plain => exact .ok trivial hp
  | method => exact .ok trivial hp
  | initializer =>
    cases e <;> simp only [dropExpr] <;> first | exact .err _ hp | exact .ok trivial hp

theorem pad_superclass (x e) : Pad X F (fun _ _ => True) (checkSuperclass x (some (dropExpr D e))) (checkSuperclass x (some e)) := by
  intro rs rs' hp
  unfold checkSuperclass
  cases e with
  | «variable» y c loc =>
    simp only [dropExpr]
    split
    · exact .err _ hp
    · exact .ok trivial hp
  | _ => simp only [dropExpr]; exact .ok trivial hp

theorem pad_params (hX : Excuses X) : ∀ ps : List Parameter, Unnamed F (paramActs ps) → Pad X F (fun _ _ => True) (defineParams ps) (defineParams ps)
  | [], _ => pad_pure trivial
  | p :: ps, h => by
    simp only [paramActs, List.map_cons, unnamed_cons, Act.name, unnamed_name] at h
    exact pad_bind (pad_define hX h.1 p.loc) fun _ _ _ => pad_params hX ps h.2

section
variable {s : Scope} {ss : List Scope} {ft : FnType} {ct : ClassType} {x : Str} {loc : SourceLoc}

theorem declare_full (h : s.length > varLocMaxDistance) :
    declare x loc ⟨s :: ss, ft, ct⟩ = .err (.newWithLocation loc x "Too many local variables in function.") ⟨s :: ss, ft, ct⟩ := by
  unfold declare ensureScopeIndexLimit
  simp only [bind, M.bind, M.get, h, if_true, M.throw]

theorem define_full (h : s.length > varLocMaxDistance) :
    define x loc ⟨s :: ss, ft, ct⟩ = .err (.newWithLocation loc x "Too many local variables in function.") ⟨s :: ss, ft, ct⟩ := by
  unfold define ensureScopeIndexLimit
  simp only [bind, M.bind, M.get, h, if_true, M.throw]

theorem declare_new (h : ¬ s.length > varLocMaxDistance) (hg : s.get x = none) :
    declare x loc ⟨s :: ss, ft, ct⟩ = .ok ⟨s.length % 256⟩ ⟨s.insertNew x ⟨s.length, .declaredVar⟩ :: ss, ft, ct⟩ := by
  unfold declare ensureScopeIndexLimit
  simp only [bind, M.bind, M.get, h, if_false, pure, M.pure, hg]
  rfl

theorem define_begun {n : Nat} (h : ¬ s.length > varLocMaxDistance) (hg : s.get x = some ⟨n, .declaredVar⟩) :
    define x loc ⟨s :: ss, ft, ct⟩ = .ok () ⟨s.setState x .definedVar :: ss, ft, ct⟩ := by
  unfold define ensureScopeIndexLimit
  simp only [bind, M.bind, M.get, h, if_false, pure, M.pure, hg]
  rfl

theorem declare_redeclared {n : Nat} (h : ¬ s.length > varLocMaxDistance) (hg : s.get x = some ⟨n, .definedVar⟩) :
    declare x loc ⟨s :: ss, ft, ct⟩ = if ss = [] then .ok ⟨n % 256⟩ ⟨s :: ss, ft, ct⟩ else
      .err (.newWithLocation loc x "Variable with this name already declared in this scope.") ⟨s :: ss, ft, ct⟩ := by
  unfold declare ensureScopeIndexLimit
  simp only [bind, M.bind, M.get, h, if_false, pure, M.pure, hg, Resolver.isInGlobalScope]
  cases ss <;> rfl

theorem define_redefined {n : Nat} (h : ¬ s.length > varLocMaxDistance) (hg : s.get x = some ⟨n, .definedVar⟩) :
    define x loc ⟨[s], ft, ct⟩ = .ok () ⟨[s], ft, ct⟩ := by
  unfold define ensureScopeIndexLimit
  simp only [bind, M.bind, M.get, h, if_false, pure, M.pure, hg, Resolver.isInGlobalScope]
  rfl
end

theorem resolve_literal {e : Expr} (he : isLiteral e = true) (t) : resolveExpr e t = .ok e t := by
  cases e <;> first | (simp only [isLiteral, Bool.false_eq_true] at he; done) | (simp only [resolveExpr]; rfl)

/-- The declaration of a name in `F`. -/
theorem pad_dropped (hX : Excuses X) {x : Str} {slot e loc} (hx : x ∈ F)
    (he : isLiteral e = true) {rs rs'} (hp : Padded F rs rs')
    (hx' : rs'.scopes.length = 1 ∨ ∀ loc msg, X (.newWithLocation loc x msg)) :
    (∃ c t, resolveStmt (.var x slot e loc) rs' = .err c t ∧ X c) ∨
      (∃ m, resolveStmt (.var x slot e loc) rs' = .panic m) ∨
      ∃ slot' t, resolveStmt (.var x slot e loc) rs' = .ok (.var x slot' e loc) t ∧ Padded F rs t := by
  obtain ⟨scopes, ft, ct⟩ := rs
  obtain ⟨scopes', ft', ct'⟩ := rs'
  obtain ⟨h1, h2, h3⟩ := hp
  simp only [resolveStmt, bind, M.bind, resolve_literal he]
  cases h1 with
  | nil => exact .inr (.inl ⟨_, rfl⟩)
  | @cons s s' ss ss' h h4 =>
    by_cases hl : s'.length > varLocMaxDistance
    · rw [declare_full hl]
      exact .inl ⟨_, _, rfl, hX loc x⟩
    · cases g2 : s'.get x with
      | none =>
        rw [declare_new hl g2]
        dsimp only
        by_cases hl2 : (s'.insertNew x ⟨s'.length, .declaredVar⟩).length > varLocMaxDistance
        · rw [define_full hl2]
          exact .inl ⟨_, _, rfl, hX loc x⟩
        · rw [define_begun hl2 (get_insertNew g2)]
          exact .inr (.inr ⟨_, _, rfl, .cons (padScope_new h hx g2) h4, h2, h3⟩)
      | some v =>
        obtain ⟨n, st⟩ := v
        have hd := h.defined x hx _ g2
        dsimp only at hd
        subst hd
        rw [declare_redeclared hl g2]
        cases ss' with
        | nil =>
          rw [if_pos rfl]
          dsimp only
          rw [define_redefined hl g2]
          exact .inr (.inr ⟨_, _, rfl, .cons h h4, h2, h3⟩)
        | cons t ts =>
          rw [if_neg (by simp)]
          rcases hx' with hx' | hx'
          · simp at hx'
          · exact .inl ⟨_, _, rfl, hx' _ _⟩

/-! ### Programs -/

/-- The values: an expression, and the expression with the declarations. -/
abbrev PadExpr (D : List Str) (e e' : Expr) : Prop := slotlessExpr (dropExpr D e') = slotlessExpr e
abbrev PadExprs (D : List Str) (e e' : List Expr) : Prop := slotlessExprs (dropExprs D e') = slotlessExprs e
abbrev PadEntries (D : List Str) (e e' : List MapEntry) : Prop := slotlessEntries (dropEntries D e') = slotlessEntries e
abbrev PadFun (D : List Str) (e e' : FunDef) : Prop := slotlessFun (dropFun D e') = slotlessFun e
abbrev PadMethods (D : List Str) (e e' : List NamedFun) : Prop := slotlessMethods (dropMethods D e') = slotlessMethods e
abbrev PadStmt (D : List Str) (e e' : Stmt) : Prop := slotlessStmt (dropStmt D e') = slotlessStmt e
abbrev PadStmts (D : List Str) (e e' : List Stmt) : Prop := slotlessStmts (dropStmts D e') = slotlessStmts e

theorem dropFun_loc (d : FunDef) : (dropFun D d).loc = d.loc := by cases d; simp only [dropFun, FunDef.loc]

theorem literal_erase (e : Expr) : isLiteral (eraseExpr e) = isLiteral e := by cases e <;> simp only [eraseExpr, isLiteral]

theorem declares_erase (s : Stmt) : declaresOneOf D (eraseStmt s) = declaresOneOf D s := by
  unfold eraseStmt
  split <;> simp only [declaresOneOf, literal_erase]

theorem resolved_declares {s s' : Stmt} {rs rs'} (h : resolveStmt s rs = .ok s' rs') :
    declaresOneOf D s' = declaresOneOf D s := by
  have := resolved_erase (resolved_stmt s h)
  simp only [eraseItem, eraseNode, Item.node.injEq, Node.stmt.injEq] at this
  rw [← declares_erase, ← this, declares_erase]

local macro "un" "[" ts:Lean.Parser.Tactic.simpLemma,* "]" "at" h:ident : tactic =>
  `(tactic| simp only [exprActs, exprsActs, entriesActs, funActs, methodsActs, stmtActs, stmtsActs, unnamed_append, unnamed_cons,
    Act.name, unnamed_name, $ts,*] at $h:ident)

local macro "pv" "[" ts:Lean.Parser.Tactic.simpLemma,* "]" : tactic =>
  `(tactic| simp only [PadExpr, PadExprs, PadEntries, PadFun, PadMethods, PadStmt, PadStmts, dropExpr, dropExprs,
    dropEntries, dropFun, dropMethods, dropStmt, slotlessExpr, slotlessExprs, slotlessEntries, slotlessFun, slotlessMethods,
    slotlessStmt, slotlessStmts, $ts,*])

theorem unnamed_read {c : ClassAround} {x : Str} {loc : SourceLoc} (ht : c!"this" ∉ F) (h : Unnamed F (readActs c x loc)) : x ∉ F := by
  unfold readActs at h
  split at h
  · rename_i hx; rw [hx.1]; exact ht
  · simp only [unnamed_cons, Act.name, unnamed_name] at h; exact h.1

theorem declares_var {s : Stmt} (h : declaresOneOf D s = true) :
    ∃ x slot e loc, s = .var x slot e loc ∧ x ∈ D ∧ isLiteral e = true := by
  cases s with
  | var x slot e loc =>
    simp only [declaresOneOf, Bool.and_eq_true, List.contains_iff_mem] at h
    exact ⟨x, slot, e, loc, rfl, h.1, h.2⟩
  | _ => simp only [declaresOneOf, Bool.false_eq_true] at h

theorem declares_of {x slot e loc} (hx : x ∈ D) (he : isLiteral e = true) : declaresOneOf D (.var x slot e loc) = true := by
  simp only [declaresOneOf, Bool.and_eq_true, List.contains_iff_mem]
  exact ⟨hx, he⟩

/-- Something is done with the second value. -/
theorem pad_then {V : α → β → Prop} {W : α → γ → Prop} {r : Res Resolver Cause α} {x : R β} {t : Resolver} {k : β → γ}
    (h : PadRes X F V r (x t)) (hk : ∀ {a} b, V a b → W a (k b)) : PadRes X F W r ((x >>= fun b => pure (k b)) t) := by
  show PadRes X F W r (M.bind x _ t)
  unfold M.bind
  revert h
  generalize x t = r'
  intro h
  cases h with
  | ok hv hp => exact .ok (hk _ hv) hp
  | err e hp => exact .err e hp
  | excused _ _ he => exact .excused _ _ he
  | panic _ m => exact .panic _ m
  | diverge => exact .diverge

/-- Something is known of the second value. -/
theorem pad_result {V : α → β → Prop} {P : β → Prop} {r : Res Resolver Cause α} {r' : Res Resolver Cause β}
    (h : PadRes X F V r r') (hk : ∀ b t, r' = .ok b t → P b) : PadRes X F (fun a b => V a b ∧ P b) r r' := by
  cases h with
  | ok hv hp => exact .ok ⟨hv, hk _ _ rfl⟩ hp
  | err e hp => exact .err e hp
  | excused _ _ he => exact .excused _ _ he
  | panic _ m => exact .panic _ m
  | diverge => exact .diverge

section
set_option linter.unusedSectionVars false
variable (hX : Excuses X) (hD : ∀ x ∈ D, x ∈ F ∧ ∀ loc msg, X (.newWithLocation loc x msg)) (ht : c!"this" ∉ F) (hs : c!"super" ∉ F)
include hX hD ht hs

mutual
theorem pad_stmt : ∀ f c s, Unnamed F (stmtActs f c (dropStmt D s)) → Pad X F (PadStmt D) (resolveStmt (dropStmt D s)) (resolveStmt s)
  | f, c, .block b, h => by
    simp only [dropStmt] at h ⊢
    un [] at h
    simp only [resolveStmt]
    exact pad_bind (pad_scope (pad_stmts f c b h.2.1)) fun _ _ h1 =>
      pad_pure (by pv [h1])
  | f, c, .break loc, h => by
    simp only [dropStmt] at h ⊢
    simp only [resolveStmt]
    exact pad_pure (by pv [])
  | f, c, .continue loc, h => by
    simp only [dropStmt] at h ⊢
    simp only [resolveStmt]
    exact pad_pure (by pv [])
  | f, c, .class x none ms loc, h => by
    simp only [dropStmt] at h ⊢
    un [] at h
    simp only [resolveStmt]
    exact pad_class _ (pad_bind (pad_define hX h.1 loc) fun _ _ _ => pad_bind (V := fun _ _ => True) (pad_pure trivial) fun _ _ _ =>
      pad_bind (V := PadMethods D) (pad_scope (pad_bind (pad_define hX ht loc) fun _ _ _ => pad_methods _ ms h.2.2.1.2)) fun _ _ h1 =>
      pad_pure (by pv [h1]))
  | f, c, .class x (some e) ms loc, h => by
    simp only [dropStmt] at h ⊢
    un [] at h
    simp only [resolveStmt]
    exact pad_class _ (pad_bind (pad_define hX h.1 loc) fun _ _ _ => pad_bind (pad_superclass x e) fun _ _ _ =>
      pad_bind (pad_expr f _ e h.2.2.1) fun _ _ h1 =>
      pad_bind (V := PadMethods D) (pad_scope (pad_bind (pad_define hX hs loc) fun _ _ _ =>
        pad_scope (pad_bind (pad_define hX ht loc) fun _ _ _ => pad_methods _ ms h.2.2.2.2.1.2.2.1.2))) fun _ _ h2 =>
      pad_pure (by pv [h1, h2]))
  | f, c, .expression e, h => by
    simp only [dropStmt] at h ⊢
    un [] at h
    simp only [resolveStmt]
    exact pad_bind (pad_expr f c e h) fun _ _ h1 =>
      pad_pure (by pv [h1])
  | f, c, .print e, h => by
    simp only [dropStmt] at h ⊢
    un [] at h
    simp only [resolveStmt]
    exact pad_bind (pad_expr f c e h) fun _ _ h1 =>
      pad_pure (by pv [h1])
  | f, c, .fun (.mk x d), h => by
    simp only [dropStmt] at h ⊢
    un [dropFun_loc] at h
    simp only [resolveStmt, dropFun_loc]
    exact pad_bind (pad_define hX h.1 d.loc) fun _ _ _ => pad_bind (pad_fn _ _ c d h.2) fun _ _ h1 => pad_pure (by pv [h1])
  | f, c, .if e a none, h => by
    simp only [dropStmt] at h ⊢
    un [] at h
    simp only [resolveStmt]
    exact pad_bind (pad_expr f c e h.1) fun _ _ h1 =>
      pad_bind (pad_stmt f c a h.2) fun _ _ h2 =>
      pad_pure (by pv [h1, h2])
  | f, c, .if e a (some b), h => by
    simp only [dropStmt] at h ⊢
    un [] at h
    simp only [resolveStmt]
    exact pad_bind (pad_expr f c e h.1) fun _ _ h1 =>
      pad_bind (pad_stmt f c a h.2.1) fun _ _ h2 =>
      pad_bind (pad_stmt f c b h.2.2) fun _ _ h3 =>
      pad_pure (by pv [h1, h2, h3])
  | f, c, .return e loc, h => by
    simp only [dropStmt] at h ⊢
    un [] at h
    simp only [resolveStmt]
    exact pad_bind (pad_return e loc) fun _ _ _ =>
      pad_bind (pad_expr f c e h.2) fun _ _ h2 =>
      pad_pure (by pv [h2])
  | f, c, .var x c1 e loc, h => by
    simp only [dropStmt] at h ⊢
    un [] at h
    simp only [resolveStmt]
    exact pad_bind (pad_declare hX h.1 loc) fun _ _ _ =>
      pad_bind (pad_expr f c e h.2.1) fun _ _ h2 =>
      pad_bind (pad_define hX h.1 loc) fun _ _ _ =>
      pad_pure (by pv [h2])
  | f, c, .while e b, h => by
    simp only [dropStmt] at h ⊢
    un [] at h
    simp only [resolveStmt]
    exact pad_bind (pad_expr f c e h.1) fun _ _ h1 =>
      pad_bind (pad_stmt f c b h.2) fun _ _ h2 =>
      pad_pure (by pv [h1, h2])
  | f, c, .whileIncrement e b i, h => by
    simp only [dropStmt] at h ⊢
    un [] at h
    simp only [resolveStmt]
    exact pad_bind (pad_expr f c e h.1) fun _ _ h1 =>
      pad_bind (pad_stmt f c b h.2.1) fun _ _ h2 =>
      pad_bind (pad_expr f c i h.2.2) fun _ _ h3 =>
      pad_pure (by pv [h1, h2, h3])

theorem pad_stmts : ∀ f c ss, Unnamed F (stmtsActs f c (dropStmts D ss)) →
    Pad X F (PadStmts D) (resolveStmts (dropStmts D ss)) (resolveStmts ss)
  | f, c, [], h => by
    simp only [dropStmts, resolveStmts]
    exact pad_pure (by simp only [PadStmts, dropStmts])
  | f, c, s :: ss, h => by
    simp only [dropStmts] at h ⊢
    by_cases hd : declaresOneOf D s = true
    · rw [if_pos hd] at h ⊢
      obtain ⟨x, slot, e, loc, rfl, hx, he⟩ := declares_var hd
      intro rs rs' hp
      simp only [resolveStmts, bind]
      show PadRes X F _ _ (M.bind _ _ _)
      unfold M.bind
      rcases pad_dropped hX (slot := slot) (loc := loc) (hD x hx).1 he hp (.inr (hD x hx).2) with ⟨a, t, e1, e2⟩ | ⟨m, e1⟩ | ⟨slot', t, e1, e2⟩
      · rw [e1]
        exact .excused _ _ e2
      · rw [e1]
        exact .panic _ _
      · rw [e1]
        refine pad_then (pad_stmts f c ss h rs t e2) fun sts h1 => ?_
        show slotlessStmts (dropStmts D (_ :: _)) = _
        rw [dropStmts, if_pos (declares_of hx he)]
        exact h1
    · rw [if_neg hd] at h ⊢
      un [] at h
      simp only [resolveStmts]
      refine pad_bind (V := fun a a' => PadStmt D a a' ∧ declaresOneOf D a' ≠ true) (fun rs rs' hp => ?_) fun _ _ h1 =>
        pad_bind (pad_stmts f c ss h.2) fun _ _ h2 => pad_pure ?_
      · exact pad_result (pad_stmt f c s h.1 rs rs' hp) fun a' t e => by rw [resolved_declares e]; exact hd
      · simp only [PadStmts, dropStmts, if_neg h1.2, slotlessStmts, h1.1, h2]

theorem pad_expr : ∀ f c e, Unnamed F (exprActs f c (dropExpr D e)) → Pad X F (PadExpr D) (resolveExpr (dropExpr D e)) (resolveExpr e)
  | f, c, .assign x c1 r loc, h => by
    simp only [dropExpr] at h ⊢
    un [] at h
    simp only [resolveExpr]
    exact pad_bind (pad_expr f c r h.1) fun _ _ h1 =>
      pad_bind (pad_local hX h.2.1 loc) fun _ _ h2 =>
      pad_pure (by pv [h1, h2])
  | f, c, .binary a op b loc, h => by
    simp only [dropExpr] at h ⊢
    un [] at h
    simp only [resolveExpr]
    exact pad_bind (pad_expr f c a h.1) fun _ _ h1 =>
      pad_bind (pad_expr f c b h.2) fun _ _ h2 =>
      pad_pure (by pv [h1, h2])
  | f, c, .call e es loc, h => by
    simp only [dropExpr] at h ⊢
    un [] at h
    simp only [resolveExpr]
    exact pad_bind (pad_expr f c e h.1) fun _ _ h1 =>
      pad_bind (pad_exprs f c es h.2) fun _ _ h2 =>
      pad_pure (by pv [h1, h2])
  | f, c, .function d, h => by
    simp only [dropExpr] at h ⊢
    un [] at h
    simp only [resolveExpr]
    exact pad_bind (pad_fn _ _ c d h) fun _ _ h1 =>
      pad_pure (by pv [h1])
  | f, c, .get o n loc, h => by
    simp only [dropExpr] at h ⊢
    un [] at h
    simp only [resolveExpr]
    exact pad_bind (pad_expr f c o h) fun _ _ h1 =>
      pad_pure (by pv [h1])
  | f, c, .getIndex a b loc, h => by
    simp only [dropExpr] at h ⊢
    un [] at h
    simp only [resolveExpr]
    exact pad_bind (pad_expr f c a h.1) fun _ _ h1 =>
      pad_bind (pad_expr f c b h.2) fun _ _ h2 =>
      pad_pure (by pv [h1, h2])
  | f, c, .grouping e, h => by
    simp only [dropExpr] at h ⊢
    un [] at h
    simp only [resolveExpr]
    exact pad_bind (pad_expr f c e h) fun _ _ h1 =>
      pad_pure (by pv [h1])
  | f, c, .literalArray es, h => by
    simp only [dropExpr] at h ⊢
    un [] at h
    simp only [resolveExpr]
    exact pad_bind (pad_exprs f c es h) fun _ _ h1 =>
      pad_pure (by pv [h1])
  | f, c, .literalBool b, h => by
    simp only [dropExpr] at h ⊢
    simp only [resolveExpr]
    exact pad_pure (by pv [])
  | f, c, .literalMap ms, h => by
    simp only [dropExpr] at h ⊢
    un [] at h
    simp only [resolveExpr]
    exact pad_bind (pad_entries f c ms h) fun _ _ h1 =>
      pad_pure (by pv [h1])
  | f, c, .literalNil, h => by
    simp only [dropExpr] at h ⊢
    simp only [resolveExpr]
    exact pad_pure (by pv [])
  | f, c, .literalNumber x, h => by
    simp only [dropExpr] at h ⊢
    simp only [resolveExpr]
    exact pad_pure (by pv [])
  | f, c, .literalString x, h => by
    simp only [dropExpr] at h ⊢
    simp only [resolveExpr]
    exact pad_pure (by pv [])
  | f, c, .logical a op b, h => by
    simp only [dropExpr] at h ⊢
    un [] at h
    simp only [resolveExpr]
    exact pad_bind (pad_expr f c a h.1) fun _ _ h1 =>
      pad_bind (pad_expr f c b h.2) fun _ _ h2 =>
      pad_pure (by pv [h1, h2])
  | f, c, .set a n b loc, h => by
    simp only [dropExpr] at h ⊢
    un [] at h
    simp only [resolveExpr]
    exact pad_bind (pad_expr f c a h.1) fun _ _ h1 =>
      pad_bind (pad_expr f c b h.2) fun _ _ h2 =>
      pad_pure (by pv [h1, h2])
  | f, c, .setIndex a b d loc, h => by
    simp only [dropExpr] at h ⊢
    un [] at h
    simp only [resolveExpr]
    exact pad_bind (pad_expr f c a h.1) fun _ _ h1 =>
      pad_bind (pad_expr f c b h.2.1) fun _ _ h2 =>
      pad_bind (pad_expr f c d h.2.2) fun _ _ h3 =>
      pad_pure (by pv [h1, h2, h3])
  | f, c, .super c1 n loc, h => by
    simp only [dropExpr] at h ⊢
    un [] at h
    simp only [resolveExpr]
    exact pad_bind (pad_super hX hs loc) fun _ _ h1 =>
      pad_pure (by pv [h1])
  | f, c, .unary op e loc, h => by
    simp only [dropExpr] at h ⊢
    un [] at h
    simp only [resolveExpr]
    exact pad_bind (pad_expr f c e h) fun _ _ h1 =>
      pad_pure (by pv [h1])
  | f, c, .variable x c1 loc, h => by
    simp only [dropExpr] at h ⊢
    un [] at h
    simp only [resolveExpr]
    exact pad_bind (pad_variable hX (unnamed_read ht h) loc) fun _ _ h1 =>
      pad_pure (by pv [h1])

theorem pad_exprs : ∀ f c es, Unnamed F (exprsActs f c (dropExprs D es)) →
    Pad X F (PadExprs D) (resolveExprs (dropExprs D es)) (resolveExprs es)
  | f, c, [], h => by
    simp only [dropExprs, resolveExprs]
    exact pad_pure (by pv [])
  | f, c, e :: es, h => by
    simp only [dropExprs] at h ⊢
    un [] at h
    simp only [resolveExprs]
    exact pad_bind (pad_expr f c e h.1) fun _ _ h1 => pad_bind (pad_exprs f c es h.2) fun _ _ h2 => pad_pure (by pv [h1, h2])

theorem pad_entries : ∀ f c ms, Unnamed F (entriesActs f c (dropEntries D ms)) →
    Pad X F (PadEntries D) (resolveEntries (dropEntries D ms)) (resolveEntries ms)
  | f, c, [], h => by
    simp only [dropEntries, resolveEntries]
    exact pad_pure (by pv [])
  | f, c, .mk k v :: ms, h => by
    simp only [dropEntries] at h ⊢
    un [] at h
    simp only [resolveEntries]
    exact pad_bind (pad_expr f c v h.1) fun _ _ h1 => pad_bind (pad_entries f c ms h.2) fun _ _ h2 => pad_pure (by pv [h1, h2])

theorem pad_methods : ∀ c ms, Unnamed F (methodsActs c (dropMethods D ms)) →
    Pad X F (PadMethods D) (resolveMethods (dropMethods D ms)) (resolveMethods ms)
  | c, [], h => by
    simp only [dropMethods, resolveMethods]
    exact pad_pure (by pv [])
  | c, .mk k d :: ms, h => by
    simp only [dropMethods] at h ⊢
    un [] at h
    simp only [resolveMethods]
    exact pad_bind (pad_fn _ _ c d h.1) fun _ _ h1 => pad_bind (pad_methods c ms h.2) fun _ _ h2 => pad_pure (by pv [h1, h2])

theorem pad_fn : ∀ ft f c d, Unnamed F (funActs f c (dropFun D d)) →
    Pad X F (PadFun D) (resolveFunction ft (dropFun D d)) (resolveFunction ft d)
  | ft, f, c, .mk ps b k loc, h => by
    simp only [dropFun] at h ⊢
    un [] at h
    simp only [resolveFunction]
    exact pad_bind (pad_function _ (pad_scope (pad_bind (pad_params hX ps h.2.1.1) fun _ _ _ => pad_stmts f c b h.2.1.2))) fun _ _ h1 =>
      pad_pure (by pv [h1])
end

/-- The statements of a program, at the top level. -/
theorem loop_padded : ∀ (sts : List Stmt) {rs rs' t' : Resolver} {sts' : List Stmt} {es : List Cause},
    Unnamed F (stmtsActs .nowhere .nowhere (dropStmts D sts)) → Padded F rs rs' →
    resolveLoop sts rs' = .done (sts', es, t') → (∀ e ∈ es, ¬ X e) →
    ∃ out t, resolveLoop (dropStmts D sts) rs = .done (out, es, t) ∧ Padded F t t' ∧ (es = [] → PadStmts D out sts')
  | [], rs, rs', t', sts', es, _, hp, h, _ => by
    simp only [resolveLoop] at h
    cases h
    exact ⟨[], rs, by simp only [dropStmts, resolveLoop], hp, fun _ => by simp only [PadStmts, dropStmts]⟩
  | s :: ss, rs, rs', t', sts', es, hu, hp, h, he => by
    simp only [resolveLoop] at h
    simp only [dropStmts] at hu ⊢
    by_cases hd : declaresOneOf D s = true
    · rw [if_pos hd] at hu ⊢
      obtain ⟨x, slot, e, loc, rfl, hx, hl⟩ := declares_var hd
      rcases pad_dropped hX (slot := slot) (loc := loc) (hD x hx).1 hl hp (.inr (hD x hx).2) with
        ⟨c, t, e1, e2⟩ | ⟨m, e1⟩ | ⟨slot', t, e1, e2⟩
      · rw [e1] at h
        cases h1 : resolveLoop ss t with
        | done x1 =>
          simp only [h1, bind, Outcome.bind] at h
          cases h
          exact absurd e2 (he c (by simp))
        | panic m => simp only [h1, bind, Outcome.bind] at h; cases h
        | diverge => simp only [h1, bind, Outcome.bind] at h; cases h
      · rw [e1] at h
        cases h
      · rw [e1] at h
        cases h1 : resolveLoop ss t with
        | done x1 =>
          obtain ⟨a, b, c⟩ := x1
          simp only [h1, bind, Outcome.bind] at h
          cases h
          obtain ⟨out, u, g1, g2, g3⟩ := loop_padded ss hu e2 h1 he
          refine ⟨out, u, g1, g2, fun h0 => ?_⟩
          show slotlessStmts (dropStmts D (_ :: _)) = _
          rw [dropStmts, if_pos (declares_of hx hl)]
          exact g3 h0
        | panic m => simp only [h1, bind, Outcome.bind] at h; cases h
        | diverge => simp only [h1, bind, Outcome.bind] at h; cases h
    · rw [if_neg hd] at hu ⊢
      simp only [stmtsActs, unnamed_append] at hu
      have hk := pad_stmt hX hD ht hs _ _ s hu.1 rs rs' hp
      have hr := fun s' t => resolved_declares (D := D) (s := s) (s' := s') (rs := rs') (rs' := t)
      simp only [resolveLoop]
      revert hk h hr
      generalize resolveStmt s rs' = r'
      generalize resolveStmt (dropStmt D s) rs = r
      intro h hk hr
      cases hk with
      | @ok a a' t1 t2 hv hp1 =>
        dsimp only at h ⊢
        cases h1 : resolveLoop ss t2 with
        | done x1 =>
          obtain ⟨b, c, d⟩ := x1
          simp only [h1, bind, Outcome.bind] at h
          cases h
          obtain ⟨out, u, g1, g2, g3⟩ := loop_padded ss hu.2 hp1 h1 he
          refine ⟨a :: out, u, by simp only [g1, bind, Outcome.bind], g2, fun h0 => ?_⟩
          have : declaresOneOf D a' ≠ true := by rw [hr a' t2 rfl]; exact hd
          simp only [PadStmts, dropStmts, if_neg this, slotlessStmts]
          rw [g3 h0, hv]
        | panic m => simp only [h1, bind, Outcome.bind] at h; cases h
        | diverge => simp only [h1, bind, Outcome.bind] at h; cases h
      | @err c t1 t2 hp1 =>
        dsimp only at h ⊢
        cases h1 : resolveLoop ss t2 with
        | done x1 =>
          obtain ⟨b, c, d⟩ := x1
          simp only [h1, bind, Outcome.bind] at h
          cases h
          obtain ⟨out, u, g1, g2, g3⟩ := loop_padded ss hu.2 hp1 h1 (fun e h => he e (by simp [h]))
          exact ⟨dropStmt D s :: out, u, by simp only [g1, bind, Outcome.bind], g2, fun h0 => by cases h0⟩
        | panic m => simp only [h1, bind, Outcome.bind] at h; cases h
        | diverge => simp only [h1, bind, Outcome.bind] at h; cases h
      | @excused c _ t2 hx =>
        dsimp only at h
        cases h1 : resolveLoop ss t2 with
        | done x1 =>
          simp only [h1, bind, Outcome.bind] at h
          cases h
          exact absurd hx (he c (by simp))
        | panic m => simp only [h1, bind, Outcome.bind] at h; cases h
        | diverge => simp only [h1, bind, Outcome.bind] at h; cases h
      | panic _ m => cases h
      | diverge => cases h

end

/-! ### Nothing to drop -/

local macro "dn" "[" ts:Lean.Parser.Tactic.simpLemma,* "]" : tactic =>
  `(tactic| simp only [dropExpr, dropExprs, dropEntries, dropFun, dropMethods, dropStmt, dropStmts, $ts,*])

theorem declares_none (s : Stmt) : declaresOneOf [] s = false := by cases s <;> simp [declaresOneOf]

mutual
theorem dn_expr : ∀ e, dropExpr [] e = e
  | .assign x c r loc => by dn [dn_expr r]
  | .call f args loc => by dn [dn_expr f, dn_exprs args]
  | .binary a op b loc => by dn [dn_expr a, dn_expr b]
  | .function (.mk ps body kd loc) => by dn [dn_stmts body]
  | .get o x loc => by dn [dn_expr o]
  | .getIndex a i loc => by dn [dn_expr a, dn_expr i]
  | .grouping e => by dn [dn_expr e]
  | .literalArray es => by dn [dn_exprs es]
  | .literalMap ms => by dn [dn_entries ms]
  | .logical a op b => by dn [dn_expr a, dn_expr b]
  | .set o x v loc => by dn [dn_expr o, dn_expr v]
  | .setIndex a i v loc => by dn [dn_expr a, dn_expr i, dn_expr v]
  | .unary op e loc => by dn [dn_expr e]
  | .super .. | .variable .. | .literalBool _ | .literalNumber _ | .literalNil | .literalString _ => by dn []

theorem dn_exprs : ∀ es, dropExprs [] es = es
  | [] => by dn []
  | e :: es => by dn [dn_expr e, dn_exprs es]

theorem dn_entries : ∀ ms, dropEntries [] ms = ms
  | [] => by dn []
  | .mk x v :: ms => by dn [dn_expr v, dn_entries ms]

theorem dn_methods : ∀ ms, dropMethods [] ms = ms
  | [] => by dn []
  | .mk x (.mk ps body kd loc) :: ms => by dn [dn_stmts body, dn_methods ms]

theorem dn_stmt : ∀ s, dropStmt [] s = s
  | .block body => by dn [dn_stmts body]
  | .break _ | .continue _ => by dn []
  | .class x none ms loc => by dn [dn_methods ms]
  | .class x (some e) ms loc => by dn [dn_expr e, dn_methods ms]
  | .expression e => by dn [dn_expr e]
  | .fun (.mk x (.mk ps body kd loc)) => by dn [dn_stmts body]
  | .if c a none => by dn [dn_expr c, dn_stmt a]
  | .if c a (some b) => by dn [dn_expr c, dn_stmt a, dn_stmt b]
  | .print e => by dn [dn_expr e]
  | .return e loc => by dn [dn_expr e]
  | .var x s e loc => by dn [dn_expr e]
  | .while c b => by dn [dn_expr c, dn_stmt b]
  | .whileIncrement c b i => by dn [dn_expr c, dn_expr i, dn_stmt b]

theorem dn_stmts : ∀ ss, dropStmts [] ss = ss
  | [] => by dn []
  | s :: ss => by
    rw [dropStmts, if_neg (by rw [declares_none]; simp), dn_stmt s, dn_stmts ss]
end

/-- A resolver that does not know the names in `F`. -/
theorem padded_self {rs : Resolver} (h : ∀ s ∈ rs.scopes, ∀ x ∈ F, s.get x = none) : Padded F rs rs := by
  refine ⟨?_, rfl, rfl⟩
  revert h
  generalize rs.scopes = ss
  intro h
  induction ss with
  | nil => exact .nil
  | cons s ss ih =>
    refine .cons ⟨fun _ _ => rfl, fun x hx v hv => ?_, Nat.le_refl _⟩ (ih fun t ht => h t (by simp [ht]))
    rw [h s (by simp) x hx] at hv
    cases hv

end Ws
