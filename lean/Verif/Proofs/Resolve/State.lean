import Verif.Proofs.Resolve.Ok
import Verif.Spec.Scoping
/-! What the resolver's primitive operations do to its state. -/
namespace Ws
open Ws.Spec

/-- The names of a scope. -/
def Scope.names (s : Scope) : List Str := s.map (·.1)

/-- The names of the resolver's scopes. -/
def Resolver.names (rs : Resolver) : Names := rs.scopes.map Scope.names

/-- Slots are positions, and no name occurs twice. -/
structure ScopeWf (s : Scope) : Prop where
  slot : ∀ (i : Nat) (x : Str) (v : VarState), s[i]? = some (x, v) → v.slotIndex = i
  nodup : s.names.Nodup

/-- Invariant of the resolver. -/
structure Wf (rs : Resolver) : Prop where
  nonempty : rs.scopes ≠ []
  depth : rs.scopes.length ≤ varLocMaxDistance
  scope : ∀ s ∈ rs.scopes, ScopeWf s

theorem scope_get_none {s : Scope} {x : Str} : s.get x = none ↔ x ∉ s.names := by
  induction s with
  | nil => simp [Scope.get, Scope.names]
  | cons a s ih =>
    obtain ⟨k, v⟩ := a
    simp only [Scope.get, Scope.names, List.lookup_cons, List.map_cons, List.mem_cons] at *
    by_cases h : x = k
    · subst h; simp
    · rw [show (x == k) = false by simpa using h]
      simp [h, ih]

theorem scope_get_some {s : Scope} {x : Str} {v : VarState} (h : s.get x = some v) :
    ∃ i : Nat, s[i]? = some (x, v) := by
  induction s with
  | nil => simp [Scope.get] at h
  | cons a s ih =>
    obtain ⟨k, w⟩ := a
    simp only [Scope.get, List.lookup_cons] at h
    by_cases hk : x = k
    · subst hk
      simp only [beq_self_eq_true, Option.some.injEq] at h
      exact ⟨0, by simp [h]⟩
    · rw [show (x == k) = false by simpa using hk] at h
      obtain ⟨i, hi⟩ := ih h
      exact ⟨i + 1, by simpa using hi⟩

theorem scope_get_mem {s : Scope} {x : Str} {v : VarState} (h : s.get x = some v) : x ∈ s.names := by
  obtain ⟨i, hi⟩ := scope_get_some h
  exact List.mem_map.mpr ⟨_, List.mem_of_getElem? hi, rfl⟩

/-- The position of a name of a scope is its slot. -/
theorem scope_get_slot {s : Scope} (hs : ScopeWf s) {x : Str} {v : VarState} (h : s.get x = some v) :
    s.names[v.slotIndex]? = some x := by
  obtain ⟨i, hi⟩ := scope_get_some h
  rw [hs.slot i x v hi]
  simp [Scope.names, hi]

theorem setState_names {s : Scope} {x : Str} {st : DefinedState} : (s.setState x st).names = s.names := by
  induction s with
  | nil => rfl
  | cons a s ih =>
    obtain ⟨k, v⟩ := a
    simp only [Scope.setState]
    split
    · rfl
    · simp only [Scope.names, List.map_cons, List.cons.injEq, true_and]
      exact ih

theorem setState_slot {s : Scope} {x : Str} {st : DefinedState} {i : Nat} {k : Str} {v : VarState}
    (h : (s.setState x st)[i]? = some (k, v)) : ∃ w, s[i]? = some (k, w) ∧ v.slotIndex = w.slotIndex := by
  induction s generalizing i with
  | nil => simp [Scope.setState] at h
  | cons a s ih =>
    obtain ⟨k', v'⟩ := a
    simp only [Scope.setState] at h
    split at h
    · cases i with
      | zero =>
        simp only [List.getElem?_cons_zero, Option.some.injEq, Prod.mk.injEq] at h
        obtain ⟨rfl, rfl⟩ := h
        exact ⟨v', rfl, rfl⟩
      | succ i => exact ⟨v, h, rfl⟩
    · cases i with
      | zero =>
        simp only [List.getElem?_cons_zero, Option.some.injEq, Prod.mk.injEq] at h
        obtain ⟨rfl, rfl⟩ := h
        exact ⟨v', rfl, rfl⟩
      | succ i => exact ih h

theorem setState_wf {s : Scope} (hs : ScopeWf s) (x : Str) (st : DefinedState) : ScopeWf (s.setState x st) where
  slot i k v h := by
    obtain ⟨w, hw, e⟩ := setState_slot h
    rw [e]
    exact hs.slot i k w hw
  nodup := by rw [setState_names]; exact hs.nodup

theorem insertNew_names {s : Scope} {x : Str} {v : VarState} : (s.insertNew x v).names = s.names ++ [x] := by
  simp [Scope.insertNew, Scope.names]

theorem insertNew_wf {s : Scope} (hs : ScopeWf s) {x : Str} (hx : s.get x = none) {st : DefinedState} :
    ScopeWf (s.insertNew x ⟨s.length, st⟩) where
  slot i k v h := by
    unfold Scope.insertNew at h
    rw [List.getElem?_append] at h
    split at h
    · exact hs.slot i k v h
    · rename_i hi
      have : i - s.length = 0 := by
        rcases Nat.eq_zero_or_pos (i - s.length) with h0 | h0
        · exact h0
        · rw [List.getElem?_eq_none (by simp; omega)] at h
          simp at h
      rw [this] at h
      simp only [List.getElem?_cons_zero, Option.some.injEq, Prod.mk.injEq] at h
      obtain ⟨rfl, rfl⟩ := h
      show s.length = i
      omega
  nodup := by
    rw [insertNew_names, List.nodup_append]
    refine ⟨hs.nodup, by simp, ?_⟩
    intro a ha b hb e
    rw [List.mem_singleton] at hb
    rw [e, hb] at ha
    exact scope_get_none.mp hx ha

theorem get_setState {s : Scope} {x : Str} {v : VarState} {st : DefinedState} (h : s.get x = some v) :
    (s.setState x st).get x = some { v with definedState := st } := by
  induction s with
  | nil => simp [Scope.get] at h
  | cons a s ih =>
    obtain ⟨k, w⟩ := a
    simp only [Scope.get, Scope.setState, List.lookup_cons] at h ⊢
    split
    · rename_i hk
      rw [hk] at h
      simp only [Option.some.injEq] at h
      rw [List.lookup_cons, hk]
      simp [h]
    · rename_i hk
      have hk' : (x == k) = false := by simpa using hk
      rw [hk'] at h
      rw [List.lookup_cons, hk']
      exact ih h

theorem get_insertNew {s : Scope} {x : Str} {v : VarState} (h : s.get x = none) :
    (s.insertNew x v).get x = some v := by
  simp only [Scope.get, Scope.insertNew, List.lookup_append] at h ⊢
  simp [h]

/-- Adding a name to a scope, or changing its state. -/
inductive Touched (x : Str) : Scope → Scope → Prop
  | same {s v} : s.get x = some v → Touched x s s
  | state {s v st} : s.get x = some v → Touched x s (s.setState x st)
  | new {s st} : s.get x = none → s.length ≤ varLocMaxDistance → Touched x s (s.insertNew x ⟨s.length, st⟩)

theorem Touched.names {x s s'} (h : Touched x s s') : s'.names = addName x s.names := by
  cases h with
  | same h => rw [addName, if_pos (scope_get_mem h)]
  | state h => rw [setState_names, addName, if_pos (scope_get_mem h)]
  | new h => rw [insertNew_names, addName, if_neg (scope_get_none.mp h)]

theorem Touched.wf {x s s'} (h : Touched x s s') (hs : ScopeWf s) : ScopeWf s' := by
  cases h with
  | same h => exact hs
  | state h => exact setState_wf hs ..
  | new h => exact insertNew_wf hs h

/-- What can happen when a primitive operation declares `x`: it fails without changing anything, or
succeeds and changes the innermost scope only. -/
theorem define_spec (x : Str) (loc : SourceLoc) (rs : Resolver) (hn : rs.scopes ≠ []) :
    (∃ msg, define x loc rs = .err (.newWithLocation loc x msg) rs) ∨
    ∃ s s' ss, rs.scopes = s :: ss ∧ define x loc rs = .ok () { rs with scopes := s' :: ss } ∧ Touched x s s' ∧
      (s'.get x).map (·.definedState) = some .definedVar ∧
      ((s.get x).map (·.definedState) = some .definedVar → ss = []) := by
  obtain ⟨scopes, ft, ct⟩ := rs
  cases scopes with
  | nil => exact absurd rfl hn
  | cons s ss =>
    unfold define ensureScopeIndexLimit
    simp only [bind, M.bind, M.get]
    by_cases hl : s.length > varLocMaxDistance
    · simp only [hl, if_true, M.throw]
      exact .inl ⟨_, rfl⟩
    · simp only [hl, if_false, pure, M.pure]
      cases hg : s.get x with
      | none =>
        refine .inr ⟨s, _, ss, rfl, rfl, .new hg (by omega), by rw [get_insertNew hg]; rfl, by simp [hg]⟩
      | some v =>
        obtain ⟨slot, st⟩ := v
        cases st with
        | undefinedVar => exact .inr ⟨s, _, ss, rfl, rfl, .state hg, by rw [get_setState hg]; rfl, by simp [hg]⟩
        | declaredVar => exact .inr ⟨s, _, ss, rfl, rfl, .state hg, by rw [get_setState hg]; rfl, by simp [hg]⟩
        | definedVar =>
          simp only [Resolver.isInGlobalScope, List.length_cons]
          cases ss with
          | nil => exact .inr ⟨s, s, [], rfl, rfl, .same hg, by rw [hg]; rfl, fun _ => rfl⟩
          | cons s2 ss => exact .inl ⟨_, rfl⟩

theorem declare_spec (x : Str) (loc : SourceLoc) (rs : Resolver) (hn : rs.scopes ≠ []) :
    (∃ msg, declare x loc rs = .err (.newWithLocation loc x msg) rs) ∨
    ∃ s s' ss v, rs.scopes = s :: ss ∧ declare x loc rs = .ok ⟨v.slotIndex % 256⟩ { rs with scopes := s' :: ss } ∧
      Touched x s s' ∧ s'.get x = some v ∧
      ((v.definedState = .declaredVar ∧ (∀ w, s.get x = some w → w.definedState = .undefinedVar)) ∨
        ss = [] ∧ s' = s ∧ v.definedState ≠ .undefinedVar) := by
  obtain ⟨scopes, ft, ct⟩ := rs
  cases scopes with
  | nil => exact absurd rfl hn
  | cons s ss =>
    unfold declare ensureScopeIndexLimit
    simp only [bind, M.bind, M.get]
    by_cases hl : s.length > varLocMaxDistance
    · simp only [hl, if_true, M.throw]
      exact .inl ⟨_, rfl⟩
    · simp only [hl, if_false, pure, M.pure]
      cases hg : s.get x with
      | none =>
        exact .inr ⟨s, _, ss, ⟨s.length, .declaredVar⟩, rfl, rfl, .new hg (by omega), get_insertNew hg,
          .inl ⟨rfl, by intro w hw; rw [hg] at hw; cases hw⟩⟩
      | some v =>
        obtain ⟨slot, st⟩ := v
        cases st with
        | undefinedVar =>
          exact .inr ⟨s, _, ss, ⟨slot, .declaredVar⟩, rfl, rfl, .state hg, get_setState hg,
            .inl ⟨rfl, by intro w hw; rw [hg] at hw; cases hw; rfl⟩⟩
        | declaredVar =>
          simp only [Resolver.isInGlobalScope, List.length_cons]
          cases ss with
          | nil => exact .inr ⟨s, s, [], _, rfl, rfl, .same hg, hg, .inr ⟨rfl, rfl, by simp⟩⟩
          | cons s2 ss => exact .inl ⟨_, rfl⟩
        | definedVar =>
          simp only [Resolver.isInGlobalScope, List.length_cons]
          cases ss with
          | nil => exact .inr ⟨s, s, [], _, rfl, rfl, .same hg, hg, .inr ⟨rfl, rfl, by simp⟩⟩
          | cons s2 ss => exact .inl ⟨_, rfl⟩

/-- No scope has the name. -/
def Unbound (x : Str) (scopes : List Scope) : Prop := ∀ s ∈ scopes, s.get x = none

theorem findVar_spec (x : Str) (scopes : List Scope) (d : Nat) :
    (findVar x scopes d = none ∧ Unbound x scopes) ∨
    ∃ before s after v, scopes = before ++ s :: after ∧ Unbound x before ∧ s.get x = some v ∧
      findVar x scopes d = some (d + before.length, v) := by
  induction scopes generalizing d with
  | nil => exact .inl ⟨rfl, by simp [Unbound]⟩
  | cons s ss ih =>
    unfold findVar
    cases hg : s.get x with
    | some v => exact .inr ⟨[], s, ss, v, rfl, by simp [Unbound], hg, rfl⟩
    | none =>
      rcases ih (d + 1) with ⟨h, hu⟩ | ⟨before, s', after, v, e, hu, hv, h⟩
      · refine .inl ⟨h, ?_⟩
        intro t ht
        rcases List.mem_cons.mp ht with rfl | ht
        · exact hg
        · exact hu t ht
      · refine .inr ⟨s :: before, s', after, v, by simp [e], ?_, hv, ?_⟩
        · intro t ht
          rcases List.mem_cons.mp ht with rfl | ht
          · exact hg
          · exact hu t ht
        · simp only [h, List.length_cons, Option.some.injEq, Prod.mk.injEq, and_true]
          omega

theorem setGlobal_append (ss : List Scope) (g g' : Scope) : setGlobal (ss ++ [g]) g' = ss ++ [g'] := by
  induction ss with
  | nil => rfl
  | cons s ss ih =>
    cases ss with
    | nil => rfl
    | cons t ss =>
      simp only [List.cons_append] at ih ⊢
      rw [setGlobal, ih]
      simp

/-- A name is found, or becomes a global, or there are too many globals. -/
theorem local_spec (x : Str) (loc : SourceLoc) (rs : Resolver) (hn : rs.scopes ≠ []) :
    (∃ msg, resolveLocalVariable x loc rs = .err (.newWithLocation loc x msg) rs) ∨
    (∃ before s after v, rs.scopes = before ++ s :: after ∧ Unbound x before ∧ s.get x = some v ∧
      resolveLocalVariable x loc rs = .ok ⟨before.length % 65536, v.slotIndex % 256⟩ rs) ∨
    (∃ before g, rs.scopes = before ++ [g] ∧ Unbound x rs.scopes ∧ g.length ≤ varLocMaxDistance ∧
      resolveLocalVariable x loc rs = .ok ⟨before.length % 65536, g.length % 256⟩
        { rs with scopes := before ++ [g.insertNew x ⟨g.length, .undefinedVar⟩] }) := by
  unfold resolveLocalVariable
  simp only [bind, M.bind, M.get]
  rcases findVar_spec x rs.scopes 0 with ⟨h, hu⟩ | ⟨before, s, after, v, e, hu, hv, h⟩
  · rw [h]
    obtain ⟨before, g, e⟩ : ∃ before g, rs.scopes = before ++ [g] :=
      ⟨rs.scopes.dropLast, rs.scopes.getLast hn, (List.dropLast_concat_getLast hn).symm⟩
    have hg : g.get x = none := hu g (by rw [e]; simp)
    simp only [forwardReserveGlobalVar, bind, M.bind, M.get, e, List.getLast?_append, List.getLast?_singleton,
      Option.some_or, ensureScopeIndexLimit]
    by_cases hl : g.length > varLocMaxDistance
    · simp only [hl, if_true, M.throw]
      exact .inl ⟨_, rfl⟩
    · right; right
      refine ⟨before, g, rfl, by rw [← e]; exact hu, by omega, ?_⟩
      simp only [hl, if_false, pure, M.pure, hg]
      unfold M.modify M.bind
      simp only [e, setGlobal_append]
      simp
      rfl
  · rw [h]
    exact .inr (.inl ⟨before, s, after, v, e, hu, hv, by simp [pure, M.pure]⟩)

theorem variable_spec (x : Str) (loc : SourceLoc) (rs : Resolver) (hn : rs.scopes ≠ []) :
    (∃ msg, resolveVariable x loc rs = .err (.newWithLocation loc x msg) rs) ∨
    (resolveVariable x loc rs = resolveLocalVariable x loc rs ∧ (x = c!"this" → rs.classType ≠ .noClass) ∧
      ∀ s ss v, rs.scopes = s :: ss → s.get x = some v → v.definedState ≠ .declaredVar) := by
  unfold resolveVariable
  simp only [bind, M.bind, M.get]
  by_cases hc : rs.classType = .noClass ∧ x = c!"this"
  · simp only [hc, and_self, if_true, M.throw]
    exact .inl ⟨_, rfl⟩
  · rw [if_neg hc]
    cases hs : rs.scopes with
    | nil => exact absurd hs hn
    | cons s ss =>
      dsimp only
      by_cases hd : (s.get x).map (·.definedState) = some .declaredVar
      · simp only [hd, if_true, M.throw]
        exact .inl ⟨_, rfl⟩
      · rw [if_neg hd]
        refine .inr ⟨rfl, fun hx h => hc ⟨h, hx⟩, ?_⟩
        rintro s' ss' v ⟨⟩ hg h
        exact hd (by rw [hg]; simp [h])

theorem super_spec (loc : SourceLoc) (rs : Resolver) :
    (∃ msg, resolveSuper loc rs = .err (.newWithLocation loc c!"super" msg) rs) ∨
    (resolveSuper loc rs = resolveLocalVariable c!"super" loc rs ∧ rs.classType = .subclass) := by
  unfold resolveSuper
  simp only [bind, M.bind, M.get]
  cases h : rs.classType with
  | noClass => exact .inl ⟨_, rfl⟩
  | plainClass => exact .inl ⟨_, rfl⟩
  | subclass => exact .inr ⟨rfl, rfl⟩

theorem return_spec (e : Expr) (loc : SourceLoc) (rs : Resolver) :
    (∃ msg, checkReturn e loc rs = .err (.newWithLocation loc c!"return" msg) rs) ∨
    (checkReturn e loc rs = .ok () rs ∧ rs.functionType ≠ .noFunction ∧
      (rs.functionType = .initializer → e = .literalNil)) := by
  unfold checkReturn
  simp only [bind, M.bind, M.get]
  cases h : rs.functionType with
  | noFunction => exact .inl ⟨_, rfl⟩
  | plain => exact .inr ⟨rfl, by simp, by simp⟩
  | method => exact .inr ⟨rfl, by simp, by simp⟩
  | initializer =>
    cases e with
    | literalNil => exact .inr ⟨rfl, by simp, by simp⟩
    | _ => exact .inl ⟨_, rfl⟩

theorem superclass_spec (x : Str) (e : Option Expr) (rs : Resolver) :
    (∃ c loc msg, e = some (.variable x c loc) ∧ checkSuperclass x e rs = .err (.newWithLocation loc x msg) rs) ∨
    (checkSuperclass x e rs = .ok () rs ∧ ∀ c loc, e ≠ some (.variable x c loc)) := by
  unfold checkSuperclass
  split
  · rename_i id c loc
    split
    · rename_i h
      subst h
      exact .inl ⟨c, loc, _, rfl, rfl⟩
    · rename_i h
      refine .inr ⟨rfl, ?_⟩
      rintro c' loc' ⟨⟩
      exact h rfl
  · rename_i h
    refine .inr ⟨rfl, ?_⟩
    intro c loc e'
    exact h _ _ _ e'

end Ws
