import Verif.Proofs.Resolve.Unused
import Verif.Proofs.Resolve.Parts
/-! Resolving a statement on its own, and in a session. -/
namespace Ws
open Ws.Spec

/-- What is known of a global, on its own and in a session in which it is declared before or not. -/
inductive GlobalLater (G : Prop) : Option DefinedState → Option DefinedState → Prop
  | same (o) : GlobalLater G o o
  | reserved : GlobalLater G none (some .undefinedVar)
  | defined (o) : G → GlobalLater G o (some .definedVar)

/-- The global scope, on its own and in a session in which the names of `G` are declared before. -/
def LaterScope (G : Str → Prop) (g g' : Scope) : Prop :=
  ∀ x, GlobalLater (G x) ((g.get x).map (·.definedState)) ((g'.get x).map (·.definedState))

/-- The scopes differ in the global scope only. -/
inductive LaterScopes (G : Str → Prop) : List Scope → List Scope → Prop
  | nil : LaterScopes G [] []
  | one {g g'} : LaterScope G g g' → LaterScopes G [g] [g']
  | cons (s) {ss ss'} : LaterScopes G ss ss' → LaterScopes G (s :: ss) (s :: ss')

theorem LaterScopes.length_eq {G} {ss ss' : List Scope} (h : LaterScopes G ss ss') : ss.length = ss'.length := by
  induction h with
  | nil => rfl
  | one _ => rfl
  | cons _ _ ih => simp [ih]

/-- The resolver, on its own and in a session. -/
structure InSession (G : Str → Prop) (rs rs' : Resolver) : Prop where
  scopes : LaterScopes G rs.scopes rs'.scopes
  fn : rs.functionType = rs'.functionType
  cls : rs.classType = rs'.classType

/-- There are more than 65535 names in a scope. -/
def isTooMany (e : Cause) : Prop := e.message = "Too many local variables in function."

/-- The results. -/
inductive SepRes (G : Str → Prop) {α : Type} (V : α → α → Prop) : Res Resolver Cause α → Res Resolver Cause α → Prop
  | ok {a a' rs rs'} : V a a' → InSession G rs rs' → SepRes G V (.ok a rs) (.ok a' rs')
  | err (e) {rs rs'} : InSession G rs rs' → SepRes G V (.err e rs) (.err e rs')
  | full {e} (rs r) : isTooMany e → SepRes G V (.err e rs) r
  | full' {e} (r rs) : isTooMany e → SepRes G V r (.err e rs)
  | own {x} (loc rs r) : G x → SepRes G V (.err (ownInitializer x loc) rs) r
  | panic (m) : SepRes G V (.panic m) (.panic m)
  | diverge : SepRes G V .diverge .diverge

/-- The runs. -/
def Sep (G : Str → Prop) {α : Type} (V : α → α → Prop) (x x' : R α) : Prop :=
  ∀ rs rs', InSession G rs rs' → SepRes G V (x rs) (x' rs')

variable {G : Str → Prop} {α β : Type}

theorem sep_pure {V : α → α → Prop} {a b : α} (h : V a b) : Sep G V (pure a) (pure b) :=
  fun _ _ hp => .ok h hp

theorem sep_bind {V : α → α → Prop} {W : β → β → Prop} {x x' : R α} {k k' : α → R β}
    (h : Sep G V x x') (hk : ∀ a a', V a a' → Sep G W (k a) (k' a')) : Sep G W (x >>= k) (x' >>= k') := by
  intro rs rs' hp
  have h1 := h rs rs' hp
  show SepRes G W (M.bind x k rs) (M.bind x' k' rs')
  unfold M.bind
  revert h1
  generalize x rs = r
  generalize x' rs' = r'
  intro h1
  cases h1 with
  | ok hv hp1 => exact hk _ _ hv _ _ hp1
  | err e hp1 => exact .err e hp1
  | full _ _ he => exact .full _ _ he
  | full' _ _ he => exact .full' _ _ he
  | own _ _ _ he => exact .own _ _ _ he
  | panic m => exact .panic m
  | diverge => exact .diverge

theorem sep_finally {V : α → α → Prop} {x x' : R α} {e e' : Resolver → Resolver} {rs rs' : Resolver}
    (h : SepRes G V (x rs) (x' rs')) (he : ∀ t t', InSession G t t' → InSession G (e t) (e' t')) :
    SepRes G V (andFinally x e rs) (andFinally x' e' rs') := by
  unfold andFinally
  revert h
  generalize x rs = r
  generalize x' rs' = r'
  intro h1
  cases h1 with
  | ok hv hp => exact .ok hv (he _ _ hp)
  | err c hp => exact .err c (he _ _ hp)
  | full _ _ he => exact .full _ _ he
  | full' _ _ he => exact .full' _ _ he
  | own _ _ _ he => exact .own _ _ _ he
  | panic m => exact .panic m
  | diverge => exact .diverge

theorem sep_scope {V : α → α → Prop} {x x' : R α} (h : Sep G V x x') : Sep G V (inNewScope x) (inNewScope x') := by
  refine sep_bind (V := fun _ _ => True) ?_ ?_
  · intro rs rs' hp
    unfold beginScope
    rw [hp.scopes.length_eq]
    split
    · exact .panic _
    · exact .ok trivial ⟨.cons _ hp.scopes, hp.fn, hp.cls⟩
  · intro _ _ _ rs rs' hp
    refine sep_finally (h rs rs' hp) fun t t' ht => ⟨?_, ht.fn, ht.cls⟩
    show LaterScopes G t.scopes.tail t'.scopes.tail
    have := ht.scopes
    revert this
    generalize t.scopes = a
    generalize t'.scopes = b
    intro this
    cases this with
    | nil => exact .nil
    | one _ => exact .nil
    | cons _ h => exact h

theorem sep_function {V : α → α → Prop} {x x' : R α} (ft) (h : Sep G V x x') :
    Sep G V (withFunctionType ft x) (withFunctionType ft x') :=
  fun rs rs' hp => sep_finally (h { rs with functionType := ft } { rs' with functionType := ft } ⟨hp.scopes, rfl, hp.cls⟩)
    fun _ _ ht => ⟨ht.scopes, hp.fn, ht.cls⟩

theorem sep_class {V : α → α → Prop} {x x' : R α} (ct) (h : Sep G V x x') :
    Sep G V (withClassType ct x) (withClassType ct x') :=
  fun rs rs' hp => sep_finally (h { rs with classType := ct } { rs' with classType := ct } ⟨hp.scopes, hp.fn, rfl⟩)
    fun _ _ ht => ⟨ht.scopes, ht.fn, hp.cls⟩

/-! ### Scopes -/

/-- What a scope knows of a name. -/
def Scope.stateOf (s : Scope) (x : Str) : Option DefinedState := (s.get x).map (·.definedState)

theorem stateOf_insert {s : Scope} {x : Str} {n st} (h : s.get x = none) (y : Str) :
    (s.insertNew x ⟨n, st⟩).stateOf y = if y = x then some st else s.stateOf y := by
  unfold Scope.stateOf
  split
  · rename_i e; subst e; rw [get_insertNew h]; rfl
  · rename_i e; rw [get_insert_other e]

theorem stateOf_set {s : Scope} {x : Str} {v st} (h : s.get x = some v) (y : Str) :
    (s.setState x st).stateOf y = if y = x then some st else s.stateOf y := by
  unfold Scope.stateOf
  split
  · rename_i e; subst e; rw [get_setState h]; rfl
  · rename_i e; rw [get_state_other e]

/-- Both scopes change what they know of `x`. -/
theorem LaterScope.change {g g' h h' : Scope} {x : Str} {o o'} (hg : LaterScope G g g')
    (e : ∀ y, h.stateOf y = if y = x then o else g.stateOf y) (e' : ∀ y, h'.stateOf y = if y = x then o' else g'.stateOf y)
    (ho : GlobalLater (G x) o o') : LaterScope G h h' := by
  intro y
  show GlobalLater (G y) (h.stateOf y) (h'.stateOf y)
  rw [e, e']
  split
  · rename_i e; rw [e]; exact ho
  · exact hg y

theorem stateOf_keep {s : Scope} {x : Str} {v : VarState} (h : s.get x = some v) (y : Str) :
    s.stateOf y = if y = x then some v.definedState else s.stateOf y := by
  split
  · rename_i e; subst e; unfold Scope.stateOf; rw [h]; rfl
  · rfl

theorem LaterScope.refl (g : Scope) : LaterScope G g g := fun _ => .same _

theorem later_get {g g' : Scope} (h : LaterScope G g g') (x : Str) :
    (g.get x = none ∧ g'.get x = none) ∨ (∃ v v', g.get x = some v ∧ g'.get x = some v' ∧ v.definedState = v'.definedState) ∨
      (g.get x = none ∧ ∃ v', g'.get x = some v' ∧ v'.definedState = .undefinedVar) ∨
      (g.get x = none ∧ ∃ v', g'.get x = some v' ∧ v'.definedState = .definedVar ∧ G x) ∨
      ∃ v v', g.get x = some v ∧ g'.get x = some v' ∧ v'.definedState = .definedVar ∧ G x := by
  have := h x
  cases h1 : g.get x <;> cases h2 : g'.get x <;> rw [h1, h2] at this <;> simp only [Option.map] at this
  · exact .inl ⟨rfl, rfl⟩
  · rename_i v
    refine .inr (.inr ?_)
    generalize hd : v.definedState = d at this
    cases this with
    | reserved => exact .inl ⟨rfl, v, rfl, hd⟩
    | defined _ hg => exact .inr (.inl ⟨rfl, v, rfl, hd, hg⟩)
  · cases this
  · rename_i v v'
    generalize hd : v.definedState = d at this
    generalize hd' : v'.definedState = d' at this
    cases this with
    | same => exact .inr (.inl ⟨v, v', rfl, rfl, by rw [hd, hd']⟩)
    | defined _ hg => exact .inr (.inr (.inr (.inr ⟨v, v', rfl, rfl, hd', hg⟩)))

/-- What `define` does. -/
theorem define_by (x loc) (s : Scope) (ss ft ct) : define x loc ⟨s :: ss, ft, ct⟩ =
    if s.length > varLocMaxDistance then .err (.newWithLocation loc x "Too many local variables in function.") ⟨s :: ss, ft, ct⟩
    else match s.get x with
    | none => .ok () ⟨s.insertNew x ⟨s.length, .definedVar⟩ :: ss, ft, ct⟩
    | some v => match v.definedState with
      | .undefinedVar | .declaredVar => .ok () ⟨s.setState x .definedVar :: ss, ft, ct⟩
      | .definedVar => if ss.length = 0 then .ok () ⟨s :: ss, ft, ct⟩ else
          .err (.newWithLocation loc x "Variable with this name already declared in this scope.") ⟨s :: ss, ft, ct⟩ := by
  unfold define ensureScopeIndexLimit
  simp only [bind, M.bind, M.get]
  by_cases h : s.length > varLocMaxDistance
  · simp only [h, if_true]
    rfl
  · simp only [h, if_false, pure, M.pure]
    cases s.get x with
    | none => rfl
    | some v =>
      dsimp only
      cases v.definedState with
      | undefinedVar => rfl
      | declaredVar => rfl
      | definedVar => cases ss <;> rfl

/-- What `declare` does. -/
theorem declare_by (x loc) (s : Scope) (ss ft ct) : declare x loc ⟨s :: ss, ft, ct⟩ =
    if s.length > varLocMaxDistance then .err (.newWithLocation loc x "Too many local variables in function.") ⟨s :: ss, ft, ct⟩
    else match s.get x with
    | none => .ok ⟨s.length % 256⟩ ⟨s.insertNew x ⟨s.length, .declaredVar⟩ :: ss, ft, ct⟩
    | some v => match v.definedState with
      | .undefinedVar => .ok ⟨v.slotIndex % 256⟩ ⟨s.setState x .declaredVar :: ss, ft, ct⟩
      | .declaredVar | .definedVar => if ss.length = 0 then .ok ⟨v.slotIndex % 256⟩ ⟨s :: ss, ft, ct⟩ else
          .err (.newWithLocation loc x "Variable with this name already declared in this scope.") ⟨s :: ss, ft, ct⟩ := by
  unfold declare ensureScopeIndexLimit
  simp only [bind, M.bind, M.get]
  by_cases h : s.length > varLocMaxDistance
  · simp only [h, if_true]
    rfl
  · simp only [h, if_false, pure, M.pure]
    cases s.get x with
    | none => rfl
    | some v =>
      dsimp only
      cases v.definedState with
      | undefinedVar => rfl
      | declaredVar => cases ss <;> rfl
      | definedVar => cases ss <;> rfl

theorem sep_define (x loc) : Sep G (fun _ _ => True) (define x loc) (define x loc) := by
  rintro ⟨scopes, ft, ct⟩ ⟨scopes', ft', ct'⟩ ⟨h1, h2, h3⟩
  dsimp only at h1 h2 h3
  cases h1 with
  | nil => exact .panic _
  | cons s h =>
    rw [define_by, define_by, h.length_eq]
    split
    · exact .err _ ⟨.cons _ h, h2, h3⟩
    · split
      · exact .ok trivial ⟨.cons _ h, h2, h3⟩
      · split
        · exact .ok trivial ⟨.cons _ h, h2, h3⟩
        · exact .ok trivial ⟨.cons _ h, h2, h3⟩
        · split
          · exact .ok trivial ⟨.cons _ h, h2, h3⟩
          · exact .err _ ⟨.cons _ h, h2, h3⟩
  | @one g g' h =>
    rw [define_by, define_by]
    by_cases l1 : g.length > varLocMaxDistance
    · rw [if_pos l1]; exact .full _ _ rfl
    by_cases l2 : g'.length > varLocMaxDistance
    · rw [if_pos l2]; exact .full' _ _ rfl
    rw [if_neg l1, if_neg l2]
    have key : ∀ {s : Scope}, ∃ t : Scope, (∀ y, t.stateOf y = if y = x then some .definedVar else s.stateOf y) ∧ ∀ ft ct,
        (match s.get x with
        | none => (.ok () ⟨s.insertNew x ⟨s.length, .definedVar⟩ :: [], ft, ct⟩ : Res Resolver Cause Unit)
        | some v => match v.definedState with
          | .undefinedVar | .declaredVar => .ok () ⟨s.setState x .definedVar :: [], ft, ct⟩
          | .definedVar => if ([] : List Scope).length = 0 then .ok () ⟨s :: [], ft, ct⟩ else
              .err (.newWithLocation loc x "Variable with this name already declared in this scope.") ⟨s :: [], ft, ct⟩) =
          .ok () ⟨[t], ft, ct⟩ := by
      intro s
      cases hx : s.get x with
      | none => exact ⟨_, stateOf_insert hx, fun _ _ => rfl⟩
      | some v =>
        dsimp only
        cases hd : v.definedState with
        | undefinedVar => exact ⟨_, stateOf_set hx, fun _ _ => rfl⟩
        | declaredVar => exact ⟨_, stateOf_set hx, fun _ _ => rfl⟩
        | definedVar => exact ⟨s, fun y => by have := stateOf_keep hx y; rw [hd] at this; exact this, fun _ _ => rfl⟩
    obtain ⟨t, k1, k2⟩ := key (s := g)
    obtain ⟨t', k1', k2'⟩ := key (s := g')
    rw [k2, k2']
    exact .ok trivial ⟨.one (h.change k1 k1' (.same _)), h2, h3⟩

theorem sep_declare (x loc) : Sep G (fun _ _ => True) (declare x loc) (declare x loc) := by
  rintro ⟨scopes, ft, ct⟩ ⟨scopes', ft', ct'⟩ ⟨h1, h2, h3⟩
  dsimp only at h1 h2 h3
  cases h1 with
  | nil => exact .panic _
  | cons s h =>
    rw [declare_by, declare_by, h.length_eq]
    split
    · exact .err _ ⟨.cons _ h, h2, h3⟩
    · split
      · exact .ok trivial ⟨.cons _ h, h2, h3⟩
      · split
        · exact .ok trivial ⟨.cons _ h, h2, h3⟩
        · split
          · exact .ok trivial ⟨.cons _ h, h2, h3⟩
          · exact .err _ ⟨.cons _ h, h2, h3⟩
        · split
          · exact .ok trivial ⟨.cons _ h, h2, h3⟩
          · exact .err _ ⟨.cons _ h, h2, h3⟩
  | @one g g' h =>
    rw [declare_by, declare_by]
    by_cases l1 : g.length > varLocMaxDistance
    · rw [if_pos l1]; exact .full _ _ rfl
    by_cases l2 : g'.length > varLocMaxDistance
    · rw [if_pos l2]; exact .full' _ _ rfl
    rw [if_neg l1, if_neg l2]
    have key : ∀ {s : Scope}, ∃ (t : Scope) (c : SlotIndex),
        (∀ y, t.stateOf y = if y = x then some (if s.stateOf x = some .definedVar then .definedVar else .declaredVar) else s.stateOf y) ∧ ∀ ft ct,
        (match s.get x with
        | none => (.ok ⟨s.length % 256⟩ ⟨s.insertNew x ⟨s.length, .declaredVar⟩ :: [], ft, ct⟩ : Res Resolver Cause SlotIndex)
        | some v => match v.definedState with
          | .undefinedVar => .ok ⟨v.slotIndex % 256⟩ ⟨s.setState x .declaredVar :: [], ft, ct⟩
          | .declaredVar | .definedVar => if ([] : List Scope).length = 0 then .ok ⟨v.slotIndex % 256⟩ ⟨s :: [], ft, ct⟩ else
              .err (.newWithLocation loc x "Variable with this name already declared in this scope.") ⟨s :: [], ft, ct⟩) =
          .ok c ⟨[t], ft, ct⟩ := by
      intro s
      cases hx : s.get x with
      | none =>
        refine ⟨_, _, fun y => ?_, fun _ _ => rfl⟩
        rw [stateOf_insert hx, show s.stateOf x = none by unfold Scope.stateOf; rw [hx]; rfl]
        rfl
      | some v =>
        have hs : s.stateOf x = some v.definedState := by unfold Scope.stateOf; rw [hx]; rfl
        dsimp only
        cases hd : v.definedState with
        | undefinedVar => refine ⟨_, _, fun y => ?_, fun _ _ => rfl⟩; rw [stateOf_set hx, hs, hd]; rfl
        | declaredVar => refine ⟨s, _, fun y => ?_, fun _ _ => rfl⟩; rw [hs, hd]; have := stateOf_keep hx y; rw [hd] at this; exact this
        | definedVar => refine ⟨s, _, fun y => ?_, fun _ _ => rfl⟩; rw [hs, hd]; have := stateOf_keep hx y; rw [hd] at this; exact this
    obtain ⟨t, c, k1, k2⟩ := key (s := g)
    obtain ⟨t', c', k1', k2'⟩ := key (s := g')
    rw [k2, k2']
    refine .ok trivial ⟨.one (h.change k1 k1' ?_), h2, h3⟩
    have hx : GlobalLater (G x) (g.stateOf x) (g'.stateOf x) := h x
    revert hx
    generalize g.stateOf x = o
    generalize g'.stateOf x = o'
    intro hx
    cases hx with
    | same => exact .same _
    | reserved => exact .same _
    | defined _ hg => exact .defined _ hg

theorem find_none {x : Str} {ss : List Scope} {d : Nat} (h : findVar x ss d = none) : ∀ s ∈ ss, s.get x = none := by
  induction ss generalizing d with
  | nil => simp
  | cons s ss ih =>
    simp only [findVar] at h
    cases hs : s.get x with
    | some v => rw [hs] at h; cases h
    | none =>
      rw [hs] at h
      intro t ht
      rcases List.mem_cons.mp ht with rfl | ht
      · exact hs
      · exact ih h t ht

theorem setGlobal_last {ss : List Scope} {g : Scope} (h : ss.getLast? = some g) : setGlobal ss g = ss := by
  induction ss with
  | nil => rfl
  | cons s ss ih =>
    cases ss with
    | nil => cases h; rfl
    | cons t ts => rw [List.getLast?_cons_cons] at h; simp only [setGlobal, ih h]

theorem sep_find (x : Str) {ss ss' : List Scope} (h : LaterScopes G ss ss') (d : Nat) :
    (findVar x ss d = none ∧ findVar x ss' d = none) ∨
      (∃ k v v', findVar x ss d = some (k, v) ∧ findVar x ss' d = some (k, v')) ∨
      (findVar x ss d = none ∧ ∃ k v', findVar x ss' d = some (k, v') ∧ k + 1 = d + ss'.length) := by
  induction h generalizing d with
  | nil => exact .inl ⟨rfl, rfl⟩
  | @one g g' h =>
    simp only [findVar, List.length_cons, List.length_nil]
    rcases later_get h x with ⟨a, b⟩ | ⟨v, v', a, b, _⟩ | ⟨a, v', b, _⟩ | ⟨a, v', b, _⟩ | ⟨v, v', a, b, _⟩ <;> rw [a, b]
    · exact .inl ⟨rfl, rfl⟩
    · exact .inr (.inl ⟨_, _, _, rfl, rfl⟩)
    · exact .inr (.inr ⟨rfl, _, _, rfl, rfl⟩)
    · exact .inr (.inr ⟨rfl, _, _, rfl, rfl⟩)
    · exact .inr (.inl ⟨_, _, _, rfl, rfl⟩)
  | cons s h ih =>
    simp only [findVar, List.length_cons]
    cases hs : s.get x with
    | some v => exact .inr (.inl ⟨_, _, _, rfl, rfl⟩)
    | none =>
      dsimp only
      rcases ih (d + 1) with a | a | ⟨a, k, v', b, c⟩
      · exact .inl a
      · exact .inr (.inl a)
      · exact .inr (.inr ⟨a, k, v', b, by omega⟩)

theorem sep_last {ss ss' : List Scope} (h : LaterScopes G ss ss') :
    (ss = [] ∧ ss' = []) ∨ ∃ g g', ss.getLast? = some g ∧ ss'.getLast? = some g' ∧ LaterScope G g g' ∧
      ∀ t t', LaterScope G t t' → LaterScopes G (setGlobal ss t) (setGlobal ss' t') := by
  induction h with
  | nil => exact .inl ⟨rfl, rfl⟩
  | one h => exact .inr ⟨_, _, rfl, rfl, h, fun _ _ h => .one h⟩
  | @cons s ss ss' h ih =>
    right
    rcases ih with ⟨rfl, rfl⟩ | ⟨g, g', e1, e2, hg, hs⟩
    · exact ⟨s, s, rfl, rfl, .refl s, fun _ _ h => .one h⟩
    · refine ⟨g, g', by simp [List.getLast?_cons, e1], by simp [List.getLast?_cons, e2], hg, fun t t' ht => ?_⟩
      have := hs t t' ht
      cases h with
      | nil => cases e1
      | one _ => exact .cons s this
      | cons _ _ => exact .cons s this

theorem local_found {x : Str} {loc} {rs : Resolver} {k v} (h : findVar x rs.scopes 0 = some (k, v)) :
    resolveLocalVariable x loc rs = .ok ⟨k % 65536, v.slotIndex % 256⟩ rs := by
  unfold resolveLocalVariable
  show M.bind M.get _ rs = _
  simp only [M.bind, M.get, h]
  rfl

theorem local_reserved {x : Str} {loc} {rs : Resolver} {g} (h : findVar x rs.scopes 0 = none) (hg : rs.scopes.getLast? = some g) :
    resolveLocalVariable x loc rs =
      if g.length > varLocMaxDistance then .err (.newWithLocation loc x "Too many local variables in function.") rs
      else .ok ⟨(rs.scopes.length - 1) % 65536, g.length % 256⟩
        { rs with scopes := setGlobal rs.scopes (g.insertNew x ⟨g.length, .undefinedVar⟩) } := by
  have hx := find_none h g (List.mem_of_getLast? hg)
  have hl : rs.scopes.length > 0 := by
    cases hr : rs.scopes with
    | nil => rw [hr] at hg; cases hg
    | cons a b => simp
  unfold resolveLocalVariable forwardReserveGlobalVar ensureScopeIndexLimit
  simp only [bind, M.bind, M.get, h, hg]
  by_cases hm : g.length > varLocMaxDistance
  · simp only [hm, if_true]
    rfl
  · simp only [hm, if_false, pure, M.pure, hx, hl, if_true]
    rfl

theorem sep_local (x loc) : Sep G SameDistance (resolveLocalVariable x loc) (resolveLocalVariable x loc) := by
  intro rs rs' hp
  rcases sep_find x hp.scopes 0 with ⟨e1, e2⟩ | ⟨k, v, v', e1, e2⟩ | ⟨e1, k, v', e2, hk⟩
  · rcases sep_last hp.scopes with ⟨n1, n2⟩ | ⟨g, g', g1, g2, hg, hs⟩
    · unfold resolveLocalVariable
      show SepRes G _ (M.bind M.get _ rs) (M.bind M.get _ rs')
      simp only [M.bind, M.get, e1, e2]
      unfold forwardReserveGlobalVar
      simp only [bind, M.bind, M.get, n1, n2, List.getLast?_nil]
      exact .panic _
    · rw [local_reserved e1 g1, local_reserved e2 g2]
      have x1 := find_none e1 g (List.mem_of_getLast? g1)
      have x2 := find_none e2 g' (List.mem_of_getLast? g2)
      split
      · exact .full _ _ rfl
      · split
        · exact .full' _ _ rfl
        · refine .ok ?_ ⟨hs _ _ (hg.change (stateOf_insert x1) (stateOf_insert x2) (.same _)), hp.fn, hp.cls⟩
          show (_ - 1) % 65536 = (_ - 1) % 65536
          rw [hp.scopes.length_eq]
  · rw [local_found e1, local_found e2]
    exact .ok rfl hp
  · rcases sep_last hp.scopes with ⟨n1, n2⟩ | ⟨g, g', g1, g2, hg, hs⟩
    · rw [n2] at e2; cases e2
    · rw [local_reserved e1 g1, local_found e2]
      have x1 := find_none e1 g (List.mem_of_getLast? g1)
      split
      · exact .full _ _ rfl
      · have hr : rs' = { rs' with scopes := setGlobal rs'.scopes g' } := by rw [setGlobal_last g2]
        rw [hr]
        have hh := hg x
        rw [x1] at hh
        simp only [Option.map_none] at hh
        cases hv : g'.get x with
        | none =>
          exfalso
          have : ∀ {ss ss' : List Scope} (h : LaterScopes G ss ss') (d : Nat), findVar x ss d = none → ss'.getLast? = some g' →
              findVar x ss' d = none := by
            intro ss ss' h
            induction h with
            | nil => exact fun _ _ _ => rfl
            | one h => intro d _ hl; simp only [List.getLast?_singleton, Option.some.injEq] at hl; subst hl; simp only [findVar, hv]
            | @cons s ss ss' h ih =>
              intro d hf hl
              simp only [findVar] at hf ⊢
              cases hs : s.get x with
              | some v => rw [hs] at hf; cases hf
              | none =>
                rw [hs] at hf
                dsimp only at hf ⊢
                cases ss' with
                | nil => rfl
                | cons a b => exact ih _ hf (by rw [List.getLast?_cons_cons] at hl; exact hl)
          rw [this hp.scopes 0 e1 g2] at e2
          cases e2
        | some w =>
          rw [hv] at hh
          refine .ok ?_ ⟨hs _ _ (hg.change (stateOf_insert x1) (stateOf_keep hv) ?_), hp.fn, hp.cls⟩
          · show (_ - 1) % 65536 = k % 65536
            rw [hp.scopes.length_eq]
            congr 1
            omega
          · simp only [Option.map_some] at hh
            generalize w.definedState = d at hh
            cases hh with
            | reserved => exact .same _
            | defined _ h => exact .defined _ h

theorem sep_variable (x loc) : Sep G SameDistance (resolveVariable x loc) (resolveVariable x loc) := by
  rintro ⟨scopes, ft, ct⟩ ⟨scopes', ft', ct'⟩ hp
  obtain ⟨h1, h2, h3⟩ := id hp
  dsimp only at h1 h2 h3
  subst h2 h3
  unfold resolveVariable
  simp only [bind, M.bind, M.get]
  split
  · exact .err _ hp
  · cases h1 with
    | nil => exact .panic _
    | cons s h =>
      dsimp only
      split
      · exact .err _ hp
      · exact sep_local x loc _ _ hp
    | one h =>
      dsimp only
      have hh := h x
      revert hh
      generalize Option.map _ _ = o
      generalize Option.map _ _ = o'
      intro hh
      cases hh with
      | same =>
        split
        · exact .err _ hp
        · exact sep_local x loc _ _ hp
      | reserved =>
        rw [if_neg (by simp), if_neg (by simp)]
        exact sep_local x loc _ _ hp
      | defined _ hg =>
        rw [if_neg (c := some DefinedState.definedVar = _) (by simp)]
        split
        · exact .own _ _ _ hg
        · exact sep_local x loc _ _ hp

theorem sep_super (loc) : Sep G SameDistance (resolveSuper loc) (resolveSuper loc) := by
  intro rs rs' hp
  unfold resolveSuper
  show SepRes G _ (M.bind M.get _ rs) (M.bind M.get _ rs')
  simp only [M.bind, M.get]
  rw [hp.cls]
  cases rs'.classType with
  | noClass => exact .err _ hp
  | plainClass => exact .err _ hp
  | subclass => exact sep_local _ loc rs rs' hp

theorem sep_return (e loc) : Sep G (fun _ _ => True) (checkReturn e loc) (checkReturn e loc) := by
  intro rs rs' hp
  unfold checkReturn
  show SepRes G _ (M.bind M.get _ rs) (M.bind M.get _ rs')
  simp only [M.bind, M.get]
  rw [hp.fn]
  cases rs'.functionType with
  | noFunction => exact .err _ hp
  | plain => exact .ok trivial hp
  | method => exact .ok trivial hp
  | initializer => cases e <;> first | exact .err _ hp | exact .ok trivial hp

theorem sep_superclass (x e) : Sep G (fun _ _ => True) (checkSuperclass x e) (checkSuperclass x e) := by
  intro rs rs' hp
  unfold checkSuperclass
  split
  · split
    · exact .err _ hp
    · exact .ok trivial hp
  · exact .ok trivial hp

theorem sep_params : ∀ ps : List Parameter, Sep G (fun _ _ => True) (defineParams ps) (defineParams ps)
  | [] => sep_pure trivial
  | p :: ps => sep_bind (sep_define p.name p.loc) fun _ _ _ => sep_params ps

/-! ### Programs -/

abbrev SameExpr (e e' : Expr) : Prop := slotlessExpr e' = slotlessExpr e
abbrev SameExprs (e e' : List Expr) : Prop := slotlessExprs e' = slotlessExprs e
abbrev SameEntries (e e' : List MapEntry) : Prop := slotlessEntries e' = slotlessEntries e
abbrev SameFun (e e' : FunDef) : Prop := slotlessFun e' = slotlessFun e
abbrev SameMethods (e e' : List NamedFun) : Prop := slotlessMethods e' = slotlessMethods e
abbrev SameStmt (e e' : Stmt) : Prop := slotlessStmt e' = slotlessStmt e
abbrev SameStmts (e e' : List Stmt) : Prop := slotlessStmts e' = slotlessStmts e

local macro "sv" "[" ts:Lean.Parser.Tactic.simpLemma,* "]" : tactic =>
  `(tactic| simp only [SameExpr, SameExprs, SameEntries, SameFun, SameMethods, SameStmt, SameStmts,
    slotlessExpr, slotlessExprs, slotlessEntries, slotlessFun, slotlessMethods, slotlessStmt, slotlessStmts, $ts,*])

mutual
theorem sep_stmt : ∀ s, Sep G SameStmt (resolveStmt s) (resolveStmt s)
  | .block b => by
    simp only [resolveStmt]
    exact sep_bind (sep_scope (sep_stmts b)) fun _ _ h1 => sep_pure (by sv [h1])
  | .break loc => by
    simp only [resolveStmt]
    exact sep_pure (by sv [])
  | .continue loc => by
    simp only [resolveStmt]
    exact sep_pure (by sv [])
  | .class x none ms loc => by
    simp only [resolveStmt]
    exact sep_class _ (sep_bind (sep_define x loc) fun _ _ _ => sep_bind (sep_superclass x none) fun _ _ _ =>
      sep_bind (V := SameMethods) (sep_scope (sep_bind (sep_define _ loc) fun _ _ _ => sep_methods ms)) fun _ _ h1 =>
      sep_pure (by sv [h1]))
  | .class x (some e) ms loc => by
    simp only [resolveStmt]
    exact sep_class _ (sep_bind (sep_define x loc) fun _ _ _ => sep_bind (sep_superclass x _) fun _ _ _ =>
      sep_bind (sep_expr e) fun _ _ h1 =>
      sep_bind (V := SameMethods) (sep_scope (sep_bind (sep_define _ loc) fun _ _ _ =>
        sep_scope (sep_bind (sep_define _ loc) fun _ _ _ => sep_methods ms))) fun _ _ h2 =>
      sep_pure (by sv [h1, h2]))
  | .expression e => by
    simp only [resolveStmt]
    exact sep_bind (sep_expr e) fun _ _ h1 => sep_pure (by sv [h1])
  | .print e => by
    simp only [resolveStmt]
    exact sep_bind (sep_expr e) fun _ _ h1 => sep_pure (by sv [h1])
  | .fun (.mk x d) => by
    simp only [resolveStmt]
    exact sep_bind (sep_define x d.loc) fun _ _ _ => sep_bind (sep_fn _ d) fun _ _ h2 => sep_pure (by sv [h2])
  | .if e a none => by
    simp only [resolveStmt]
    exact sep_bind (sep_expr e) fun _ _ h1 => sep_bind (sep_stmt a) fun _ _ h2 => sep_pure (by sv [h1, h2])
  | .if e a (some b) => by
    simp only [resolveStmt]
    exact sep_bind (sep_expr e) fun _ _ h1 => sep_bind (sep_stmt a) fun _ _ h2 => sep_bind (sep_stmt b) fun _ _ h3 => sep_pure (by sv [h1, h2, h3])
  | .return e loc => by
    simp only [resolveStmt]
    exact sep_bind (sep_return e loc) fun _ _ _ => sep_bind (sep_expr e) fun _ _ h2 => sep_pure (by sv [h2])
  | .var x c e loc => by
    simp only [resolveStmt]
    exact sep_bind (sep_declare x loc) fun _ _ _ => sep_bind (sep_expr e) fun _ _ h2 => sep_bind (sep_define x loc) fun _ _ _ => sep_pure (by sv [h2])
  | .while e b => by
    simp only [resolveStmt]
    exact sep_bind (sep_expr e) fun _ _ h1 => sep_bind (sep_stmt b) fun _ _ h2 => sep_pure (by sv [h1, h2])
  | .whileIncrement e b i => by
    simp only [resolveStmt]
    exact sep_bind (sep_expr e) fun _ _ h1 => sep_bind (sep_stmt b) fun _ _ h2 => sep_bind (sep_expr i) fun _ _ h3 => sep_pure (by sv [h1, h2, h3])

theorem sep_stmts : ∀ l, Sep G SameStmts (resolveStmts l) (resolveStmts l)
  | [] => by
    simp only [resolveStmts]
    exact sep_pure rfl
  | s :: l => by
    simp only [resolveStmts]
    exact sep_bind (sep_stmt s) fun _ _ h1 => sep_bind (sep_stmts l) fun _ _ h2 => sep_pure (by sv [h1, h2])

theorem sep_expr : ∀ e, Sep G SameExpr (resolveExpr e) (resolveExpr e)
  | .assign x c r loc => by
    simp only [resolveExpr]
    exact sep_bind (sep_expr r) fun _ _ h1 => sep_bind (sep_local x loc) fun _ _ h2 => sep_pure (by sv [h1, h2])
  | .binary a op b loc => by
    simp only [resolveExpr]
    exact sep_bind (sep_expr a) fun _ _ h1 => sep_bind (sep_expr b) fun _ _ h2 => sep_pure (by sv [h1, h2])
  | .call e es loc => by
    simp only [resolveExpr]
    exact sep_bind (sep_expr e) fun _ _ h1 => sep_bind (sep_exprs es) fun _ _ h2 => sep_pure (by sv [h1, h2])
  | .function d => by
    simp only [resolveExpr]
    exact sep_bind (sep_fn _ d) fun _ _ h1 => sep_pure (by sv [h1])
  | .get o n loc => by
    simp only [resolveExpr]
    exact sep_bind (sep_expr o) fun _ _ h1 => sep_pure (by sv [h1])
  | .getIndex a b loc => by
    simp only [resolveExpr]
    exact sep_bind (sep_expr a) fun _ _ h1 => sep_bind (sep_expr b) fun _ _ h2 => sep_pure (by sv [h1, h2])
  | .grouping e => by
    simp only [resolveExpr]
    exact sep_bind (sep_expr e) fun _ _ h1 => sep_pure (by sv [h1])
  | .literalArray es => by
    simp only [resolveExpr]
    exact sep_bind (sep_exprs es) fun _ _ h1 => sep_pure (by sv [h1])
  | .literalBool b => by
    simp only [resolveExpr]
    exact sep_pure (by sv [])
  | .literalMap ms => by
    simp only [resolveExpr]
    exact sep_bind (sep_entries ms) fun _ _ h1 => sep_pure (by sv [h1])
  | .literalNil => by
    simp only [resolveExpr]
    exact sep_pure (by sv [])
  | .literalNumber x => by
    simp only [resolveExpr]
    exact sep_pure (by sv [])
  | .literalString x => by
    simp only [resolveExpr]
    exact sep_pure (by sv [])
  | .logical a op b => by
    simp only [resolveExpr]
    exact sep_bind (sep_expr a) fun _ _ h1 => sep_bind (sep_expr b) fun _ _ h2 => sep_pure (by sv [h1, h2])
  | .set a n b loc => by
    simp only [resolveExpr]
    exact sep_bind (sep_expr a) fun _ _ h1 => sep_bind (sep_expr b) fun _ _ h2 => sep_pure (by sv [h1, h2])
  | .setIndex a b d loc => by
    simp only [resolveExpr]
    exact sep_bind (sep_expr a) fun _ _ h1 => sep_bind (sep_expr b) fun _ _ h2 => sep_bind (sep_expr d) fun _ _ h3 => sep_pure (by sv [h1, h2, h3])
  | .super c n loc => by
    simp only [resolveExpr]
    exact sep_bind (sep_super loc) fun _ _ h1 => sep_pure (by sv [h1])
  | .unary op e loc => by
    simp only [resolveExpr]
    exact sep_bind (sep_expr e) fun _ _ h1 => sep_pure (by sv [h1])
  | .variable x c loc => by
    simp only [resolveExpr]
    exact sep_bind (sep_variable x loc) fun _ _ h1 => sep_pure (by sv [h1])

theorem sep_exprs : ∀ l, Sep G SameExprs (resolveExprs l) (resolveExprs l)
  | [] => by
    simp only [resolveExprs]
    exact sep_pure rfl
  | e :: l => by
    simp only [resolveExprs]
    exact sep_bind (sep_expr e) fun _ _ h1 => sep_bind (sep_exprs l) fun _ _ h2 => sep_pure (by sv [h1, h2])

theorem sep_entries : ∀ l, Sep G SameEntries (resolveEntries l) (resolveEntries l)
  | [] => by
    simp only [resolveEntries]
    exact sep_pure rfl
  | .mk k v :: l => by
    simp only [resolveEntries]
    exact sep_bind (sep_expr v) fun _ _ h1 => sep_bind (sep_entries l) fun _ _ h2 => sep_pure (by sv [h1, h2])

theorem sep_methods : ∀ l, Sep G SameMethods (resolveMethods l) (resolveMethods l)
  | [] => by
    simp only [resolveMethods]
    exact sep_pure rfl
  | .mk k d :: l => by
    simp only [resolveMethods]
    exact sep_bind (sep_fn _ d) fun _ _ h1 => sep_bind (sep_methods l) fun _ _ h2 => sep_pure (by sv [h1, h2])

theorem sep_fn : ∀ ft d, Sep G SameFun (resolveFunction ft d) (resolveFunction ft d)
  | ft, .mk ps b k loc => by
    simp only [resolveFunction]
    exact sep_bind (sep_function _ (sep_scope (sep_bind (sep_params ps) fun _ _ _ => sep_stmts b))) fun _ _ h1 =>
      sep_pure (by sv [h1])
end

/-! ### Declarations that have begun -/

/-- The declaration of the global has begun and not ended. -/
def GlobalBegun (scopes : List Scope) (x : Str) : Prop := ∃ g, scopes.getLast? = some g ∧ g.stateOf x = some .declaredVar

theorem begun_cons {s : Scope} {ss : List Scope} (h : ss ≠ []) {x : Str} : GlobalBegun (s :: ss) x ↔ GlobalBegun ss x := by
  cases ss with
  | nil => exact absurd rfl h
  | cons t ts => unfold GlobalBegun; rw [List.getLast?_cons_cons]

theorem touched_state {x y : Str} {s s' : Scope} (h : Touched x s s') (hy : y ≠ x) : s'.stateOf y = s.stateOf y := by
  cases h with
  | same h => rfl
  | state h => rw [stateOf_set h, if_neg hy]
  | new h _ => rw [stateOf_insert h, if_neg hy]

/-- After a definition, what has begun had begun before, and is not the name that is defined. -/
theorem define_begins {x loc} {rs rs' : Resolver} (h : define x loc rs = .ok () rs') (hn : rs.scopes ≠ []) {y : Str}
    (hb : GlobalBegun rs'.scopes y) : GlobalBegun rs.scopes y ∧ (rs.scopes.length = 1 → y ≠ x) := by
  obtain ⟨s, s', ss, e, rfl, ht, hd, _⟩ := define_ok h hn
  rw [e]
  cases ss with
  | nil =>
    obtain ⟨g, e1, e2⟩ := hb
    cases e1
    have hy : y ≠ x := by
      rintro rfl
      change s'.stateOf y = _ at hd
      change s'.stateOf y = _ at e2
      rw [hd] at e2
      cases e2
    exact ⟨⟨s, rfl, by rw [← touched_state ht hy]; exact e2⟩, fun _ => hy⟩
  | cons t ts =>
    rw [begun_cons (by simp)] at hb ⊢
    exact ⟨hb, fun h => by simp at h⟩

theorem declare_begins {x loc c} {rs rs' : Resolver} (h : declare x loc rs = .ok c rs') (hn : rs.scopes ≠ []) {y : Str}
    (hb : GlobalBegun rs'.scopes y) : GlobalBegun rs.scopes y ∨ rs.scopes.length = 1 ∧ y = x := by
  obtain ⟨s, s', ss, v, e, _, rfl, ht, _⟩ := declare_ok h hn
  rw [e]
  cases ss with
  | nil =>
    by_cases hy : y = x
    · exact .inr ⟨rfl, hy⟩
    · obtain ⟨g, e1, e2⟩ := hb
      cases e1
      exact .inl ⟨s, rfl, by rw [← touched_state ht hy]; exact e2⟩
  | cons t ts =>
    rw [begun_cons (by simp)] at hb ⊢
    exact .inl hb

theorem local_begins {x loc c} {rs rs' : Resolver} (h : resolveLocalVariable x loc rs = .ok c rs') (hn : rs.scopes ≠ []) {y : Str}
    (hb : GlobalBegun rs'.scopes y) : GlobalBegun rs.scopes y := by
  rcases local_ok h hn with ⟨b, s, a, v, e, _, _, _, rfl⟩ | ⟨b, g, e, hu, _, _, rfl⟩
  · exact hb
  · obtain ⟨g', e1, e2⟩ := hb
    simp only [List.getLast?_append, List.getLast?_singleton, Option.some_or, Option.some.injEq] at e1
    subst e1
    have hx : g.get x = none := hu g (by rw [e]; simp)
    rw [stateOf_insert hx] at e2
    split at e2
    · cases e2
    · exact ⟨g, by rw [e]; simp, e2⟩

theorem params_begins : ∀ {ps} {rs rs' : Resolver}, defineParams ps rs = .ok () rs' → rs.scopes ≠ [] → ∀ {y}, GlobalBegun rs'.scopes y → GlobalBegun rs.scopes y
  | [], rs, rs', h, _, _, hb => by
    cases (pure_ok.mp h).2
    exact hb
  | p :: ps, rs, rs', h, hn, y, hb => by
    obtain ⟨_, t, h1, h2⟩ := bind_ok.mp h
    exact (define_begins h1 hn (params_begins h2 (define_shape h1 hn).nonempty hb)).1

theorem begun_enter {rs : Resolver} (hn : rs.scopes ≠ []) {y} (h : GlobalBegun rs.enter.scopes y) : GlobalBegun rs.scopes y :=
  (begun_cons hn).mp h

theorem begun_leave {t : Resolver} {n : Nat} (hl : t.scopes.length = n + 2) {y} (h : GlobalBegun t.endScope.scopes y) : GlobalBegun t.scopes y := by
  unfold Resolver.endScope at h
  cases hs : t.scopes with
  | nil => rw [hs] at hl; cases hl
  | cons a b =>
    rw [hs] at h hl
    exact (begun_cons (by rintro rfl; simp at hl)).mpr h

/-- What has begun after a success had begun before. -/
theorem resolved_begins {a b rs rs'} (h : Resolved a b rs rs') : rs.scopes ≠ [] → ∀ {y}, GlobalBegun rs'.scopes y → GlobalBegun rs.scopes y := by
  have two : ∀ {l : List Scope}, l ≠ [] → ∀ s, ∃ n, (s :: l : List Scope).length = n + 2 := by
    intro l hl s
    cases l with
    | nil => exact absurd rfl hl
    | cons a b => exact ⟨_, rfl⟩
  induction h with
  | nil => exact fun _ _ h => h
  | methods_nil => exact fun _ _ h => h
  | cons h _ i1 i2 => exact fun hn _ hb => i1 hn (i2 (resolved_shape h hn).nonempty hb)
  | methods_cons h _ i1 i2 => exact fun hn _ hb => i1 hn (i2 (resolved_shape h hn).nonempty hb)
  | plain _ _ i => exact i
  | function _ i => exact i
  | assign h h' i => exact fun hn _ hb => i hn (local_begins h' (resolved_shape h hn).nonempty hb)
  | «variable» h => exact fun hn _ hb => local_begins (variable_ok h hn).1 hn hb
  | super h => exact fun hn _ hb => local_begins (super_ok h).1 hn hb
  | @block b b' rs rs' _ h i =>
    intro hn y hb
    obtain ⟨n, hl⟩ := two hn []
    have := (resolved_shape h (enter_nonempty _)).length
    exact begun_enter hn (i (enter_nonempty _) (begun_leave (n := n) (by rw [← hl]; first | exact this | exact this.symm) hb))
  | «return» h _ i =>
    intro hn y hb
    cases (return_ok h).1
    exact i hn hb
  | @var x c c' e e' loc rs rs1 rs2 rs3 h h' h'' i =>
    intro hn y hb
    have s1 := declare_shape h hn
    have s2 := resolved_shape h' s1.nonempty
    obtain ⟨b1, b2⟩ := define_begins h'' s2.nonempty hb
    rcases declare_begins h hn (i s1.nonempty b1) with b3 | ⟨b3, rfl⟩
    · exact b3
    · exact absurd rfl (b2 (by have := s1.length; have := s2.length; omega))
  | «fun» h _ i => exact fun hn _ hb => (define_begins h hn (i (define_shape h hn).nonempty hb)).1
  | @«class» x ms ms' loc rs rs1 rs2 rs3 h _ h' h'' i =>
    intro hn y hb
    have s1 := define_shape h hn
    have s2 := define_shape h' (enter_nonempty _)
    have s3 := resolved_shape h'' s2.nonempty
    obtain ⟨n, hl⟩ := two s1.nonempty []
    have hb1 := begun_leave (t := rs3) (n := n) (by
      have := s2.length; have := s3.length; simp only [Resolver.enter] at *; omega) hb
    exact (define_begins h hn (begun_enter s1.nonempty (define_begins h' (enter_nonempty _) (i s2.nonempty hb1)).1)).1
  | @subclass x e e' ms ms' loc rs rs1 rs2 rs3 rs4 rs5 h _ he _ h' _ h'' hm i i' =>
    intro hn y hb
    have s1 := define_shape h hn
    have s2 := resolved_shape he s1.nonempty
    have s3 := define_shape h' (enter_nonempty _)
    have s4 := define_shape h'' (enter_nonempty _)
    have s5 := resolved_shape hm s4.nonempty
    obtain ⟨n, hl⟩ := two s2.nonempty []
    have l3 := s3.length
    have l4 := s4.length
    have l5 := s5.length
    simp only [Resolver.enter, List.length_cons] at l3 l4 l5 hl
    have hb1 := begun_leave (t := rs5.endScope) (n := n) (by simp only [Resolver.endScope, List.length_tail]; omega) hb
    have hb2 := begun_leave (t := rs5) (n := n + 1) (by omega) hb1
    have hb3 := begun_enter s3.nonempty (define_begins h'' (enter_nonempty _) (i' s4.nonempty hb2)).1
    have hb4 := begun_enter s2.nonempty (define_begins h' (enter_nonempty _) hb3).1
    exact (define_begins h hn (i s1.nonempty hb4)).1
  | @fn ft ps b b' k loc rs rs1 rs2 _ h h' i =>
    intro hn y hb
    have s1 := params_shape h (by simp [Resolver.enter])
    have s2 := resolved_shape h' s1.nonempty
    obtain ⟨n, hl⟩ := two hn []
    have l1 := s1.length
    have l2 := s2.length
    simp only [Resolver.enter, List.length_cons] at l1 l2 hl
    have hb1 := begun_leave (t := rs2) (n := n) (by omega) hb
    exact begun_enter hn (params_begins h (by simp [Resolver.enter]) (i s1.nonempty hb1))
